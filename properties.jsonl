{"id": "C01", "title": "Bytes and streams unpack identically", "statement": "Any decoding routine built from an unpacker's unpack/unpack_struct/read calls (that lets UnpackException propagate) returns the same value, or raises the same exception with the same wanted/present numbers, whether unpack() was given the data as bytes or as a readable stream of those bytes.", "quantifier": "every decoding program (any number and order of reads, sizes depending on earlier results) and every byte string", "why_tests_cant": "Tests run a handful of fixed reads; the claim ranges over all programs and all data.", "anchors": ["javatools/pack.py:BufferUnpacker", "javatools/pack.py:StreamUnpacker", "javatools/pack.py:unpack"]}
{"id": "C02", "title": "Truncated input is always detected and trailing input is never read", "statement": "If decoding some data succeeds after consuming n bytes, then decoding any proper prefix shorter than n bytes raises UnpackException with bytes_present < bytes_wanted, and decoding the data followed by any extra bytes returns the same value. In particular no truncated class file is ever accepted by unpack_class with a value different from the full one.", "quantifier": "every decoding program, every byte string, every cut point and every suffix", "why_tests_cant": "Every cut point of every possible file is an infinite family; tests try a few.", "anchors": ["javatools/pack.py:BufferUnpacker.unpack_struct", "javatools/pack.py:BufferUnpacker.read", "javatools/__init__.py:unpack_class"]}
{"id": "C03", "title": "A failed read on a bytes unpacker consumes nothing; a closed unpacker yields nothing", "statement": "When a read or unpack on a bytes-backed unpacker raises UnpackException the position is unchanged, so later smaller reads behave as if the failed one had not happened. After close() every request for at least one byte raises UnpackException, on both kinds of unpacker.", "quantifier": "every history of reads, failed reads and close calls", "why_tests_cant": "Holds after every history of operations, not after one sampled sequence.", "anchors": ["javatools/pack.py:BufferUnpacker", "javatools/pack.py:StreamUnpacker.close"]}
{"id": "C04", "title": "Fixed-width integers decode exactly", "statement": "The big-endian struct formats used by the library (B b H h I i q and compounds) decode every in-range integer tuple from its standard encoding, every byte string of the right length decodes to exactly one in-range tuple, and re-encoding that tuple gives the bytes back.", "quantifier": "all integer tuples in range and all byte strings of the format's size", "why_tests_cant": "2^16 to 2^64 values per field and arbitrary tuple lengths (>%iH).", "anchors": ["javatools/pack.py:Unpacker.unpack_array", "javatools/pack.py:BufferUnpacker.unpack", "javatools/pack.py:StreamUnpacker.unpack"]}
{"id": "C05", "title": "The struct cache never changes a result", "statement": "compile_struct(fmt) returns a Struct for exactly fmt after any history of earlier compile_struct calls, and two calls with equal formats return the same object as long as the same cache is used.", "quantifier": "every finite history of compile_struct calls over any formats and caches", "why_tests_cant": "History dependence: the claim is about all call sequences.", "anchors": ["javatools/pack.py:compile_struct"]}
{"id": "C06", "title": "unpack_class inverts the class-file format", "statement": "For every class-file structure (any constant pool, interfaces, fields, methods, attributes) encoded as the JVM specification says, unpack_class returns an object with exactly that version, pool, access flags, this/super references, interfaces, members and attributes (text of Utf8 constants as in C11, repeated attribute names as in C12).", "quantifier": "all well-formed class-file structures of any size", "why_tests_cant": "Class files are unboundedly large; tests use a few compiled samples.", "anchors": ["javatools/__init__.py:JavaClassInfo.unpack", "javatools/__init__.py:JavaConstantPool.unpack", "javatools/__init__.py:JavaMemberInfo.unpack", "javatools/__init__.py:JavaAttributes.unpack", "javatools/__init__.py:unpack_class"]}
{"id": "C07", "title": "Constant pool indices match the JVM numbering", "statement": "After unpacking a pool whose count field is n >= 1, the pool has exactly n slots, slot 0 and the slot after every long or double are empty, and every other slot holds the entry with that JVM index.", "quantifier": "all encoded constant pools of any length, with long/double anywhere (including last)", "why_tests_cant": "The two-slot rule interacts with every position; tests have one or two longs.", "anchors": ["javatools/__init__.py:JavaConstantPool.unpack", "javatools/__init__.py:_unpack_const_item"]}
{"id": "C08", "title": "Magic number checking", "statement": "is_class(data) is True exactly when data begins with CA FE BA BE and never raises for bytes or streams; unpack_class accepts only such data, raises ClassUnpackException for any other data of at least four bytes and UnpackException for shorter data; is_class and is_class_file agree.", "quantifier": "all byte strings", "why_tests_cant": "All byte strings, including every short one.", "anchors": ["javatools/__init__.py:is_class", "javatools/__init__.py:is_class_file", "javatools/__init__.py:unpack_class"]}
{"id": "C09", "title": "Dereferencing a well-typed pool terminates with the denoted value", "statement": "In a pool whose references have the kinds the JVM specification demands, deref_const of every valid index terminates and returns the value the entry denotes (string, number, name/type pair, class/name/type triple), no matter how large the pool is.", "quantifier": "all well-typed constant pools and all valid indices", "why_tests_cant": "Pools of any size and any arrangement of references.", "anchors": ["javatools/__init__.py:JavaConstantPool.deref_const"]}
{"id": "C10", "title": "Dereferencing a bad index or a cyclic pool raises", "statement": "deref_const(0) and out-of-range indices raise IndexError, dereferencing an empty slot raises UnknownConstantPoolTagException, and an entry that refers (directly or through other entries) back to itself never yields a value: it raises RecursionError unless a bad index or an empty slot is met first.", "quantifier": "all pools, all indices, all cycles", "why_tests_cant": "Cycle shapes and recursion limits are unbounded.", "anchors": ["javatools/__init__.py:JavaConstantPool.deref_const"]}
{"id": "C11", "title": "Utf8 constants decode the modified UTF-8 of any string", "statement": "A CONST_Utf8 entry holding the JVM's modified UTF-8 encoding of a string unpacks to that string.", "quantifier": "all strings of UTF-16 code units", "why_tests_cant": "All strings, including NUL and supplementary characters.", "anchors": ["javatools/__init__.py:_unpack_const_item"]}
{"id": "C12", "title": "Attribute lookup", "statement": "get_attribute(name) returns the bytes of the attribute table entry with that name and None when there is no such entry; every attribute of the table is retrievable.", "quantifier": "all attribute tables of any length, with any names", "why_tests_cant": "Tables with repeated names (legal for LineNumberTable) are not in the samples.", "anchors": ["javatools/__init__.py:JavaAttributes.unpack", "javatools/__init__.py:JavaClassInfo.get_attribute", "javatools/__init__.py:JavaMemberInfo.get_attribute"]}
{"id": "C13", "title": "Deprecated and Synthetic attributes are recognised", "statement": "A class, field or method carrying a Deprecated attribute (whose JVM-mandated length is zero) reports is_deprecated() as true, and one without it as false; likewise is_synthetic() for Synthetic.", "quantifier": "all attribute tables", "why_tests_cant": "No test has a class with the attribute; the claim is over all tables.", "anchors": ["javatools/__init__.py:JavaClassInfo.is_deprecated", "javatools/__init__.py:JavaMemberInfo.is_deprecated", "javatools/__init__.py:JavaMemberInfo.is_synthetic"]}
{"id": "C14", "title": "Platform lookup is total, unambiguous and monotone over known versions", "statement": "platform_from_version(major, minor) returns a platform for every class version 45.0-52.65535, None for every version outside that range, every version falls in exactly one row, and a higher version never maps to an older platform.", "quantifier": "all pairs of 16-bit (indeed all natural) major/minor numbers", "why_tests_cant": "2^32 versions.", "anchors": ["javatools/__init__.py:platform_from_version", "javatools/__init__.py:_platforms"]}
{"id": "C15", "title": "Access flag predicates and keywords reflect exactly the flag bits", "statement": "Every is_* predicate of classes and members is true exactly when its JVM bit is set, whatever the other bits; pretty_access_flags lists each keyword exactly once, exactly when its bit is set, in a fixed order.", "quantifier": "all 16-bit flag words, classes, fields and methods", "why_tests_cant": "2^16 flag words times kinds; ACC bits are shared between meanings.", "anchors": ["javatools/__init__.py:JavaMemberInfo._pretty_access_flags_gen", "javatools/__init__.py:JavaClassInfo._pretty_access_flags_gen"]}
{"id": "C16", "title": "Member lookup", "statement": "get_field_by_name returns the first field of that name or None exactly when there is none; get_methods_by_name yields exactly the methods of that name in order; get_method returns the first non-bridge method with that name and argument descriptors, None exactly when there is none; get_method_bridges yields exactly the bridge methods.", "quantifier": "all classes with any number of members and all names and argument lists", "why_tests_cant": "Any number of overloads and bridges.", "anchors": ["javatools/__init__.py:JavaClassInfo.get_field_by_name", "javatools/__init__.py:JavaClassInfo.get_methods_by_name", "javatools/__init__.py:JavaClassInfo.get_method", "javatools/__init__.py:JavaClassInfo.get_method_bridges"]}
{"id": "C17", "title": "Annotation attributes decode exactly", "statement": "For every annotation structure of any nesting depth within the recursion limit, decoding its JVM encoding yields that structure: type, keys, and values of every tag, including nested annotations and arrays.", "quantifier": "all annotation trees", "why_tests_cant": "Unbounded nesting and fan-out.", "anchors": ["javatools/__init__.py:JavaAnnotation.unpack", "javatools/__init__.py:_unpack_annotation_val", "javatools/__init__.py:JavaMemberInfo._get_annotations"]}
{"id": "C18", "title": "Annotation equality is semantic", "statement": "Two annotations compare equal exactly when their dereferenced types, key sets and dereferenced values are the same; the comparison is reflexive and symmetric and does not depend on how the two constant pools are numbered.", "quantifier": "all pairs of annotations over all pairs of constant pools", "why_tests_cant": "Pairs of arbitrarily nested values over different pools.", "anchors": ["javatools/__init__.py:JavaAnnotation.__eq__", "javatools/__init__.py:_annotation_val_eq"]}
{"id": "C19", "title": "AnnotationDefault is decoded as an element value", "statement": "get_annotationdefault of an annotation member returns the constant index stored in its AnnotationDefault element_value.", "quantifier": "all AnnotationDefault attributes", "why_tests_cant": "Not covered by any test; ranges over all element values.", "anchors": ["javatools/__init__.py:JavaMemberInfo.get_annotationdefault"]}
{"id": "C20", "title": "Every constant that can be unpacked can be displayed", "statement": "pretty_const and pretty_constants return a type name and value for every slot of every pool that unpack accepts, and (None, None) exactly for the empty slots.", "quantifier": "all pools accepted by unpack", "why_tests_cant": "All tags in all positions.", "anchors": ["javatools/__init__.py:JavaConstantPool.pretty_const", "javatools/__init__.py:JavaConstantPool.pretty_constants", "javatools/__init__.py:_pretty_const_type_val", "javatools/__init__.py:_unpack_const_item"]}
{"id": "C21", "title": "Descriptor splitting inverts concatenation", "statement": "Splitting the concatenation of any sequence of field descriptors returns exactly that sequence.", "quantifier": "all sequences of valid field type descriptors (any array depth, any class names)", "why_tests_cant": "Unbounded sequences and array depth.", "anchors": ["javatools/__init__.py:_typeseq", "javatools/__init__.py:_typeseq_iter", "javatools/__init__.py:_next_argsig"]}
{"id": "C22", "title": "Descriptor splitting terminates and loses nothing on any text", "statement": "Splitting any string, well-formed or corrupt, finishes; it either raises or returns pieces; pieces are non-empty unless they come from the '.' escape, and if no piece came from the '.' escape the pieces concatenate to the input.", "quantifier": "all strings", "why_tests_cant": "The source records two historic infinite loops on corrupt input; no finite test set excludes a third.", "anchors": ["javatools/__init__.py:_typeseq_iter", "javatools/__init__.py:_next_argsig"]}
{"id": "C23", "title": "Method descriptor accessors", "statement": "For a method whose descriptor is (args)ret, get_arg_type_descriptors returns args, get_type_descriptor returns ret and pretty_arg_types/pretty_type their Java names; for a field get_type_descriptor returns the descriptor and the argument list is empty.", "quantifier": "all method and field descriptors over Java class names (no ')' or ';')", "why_tests_cant": "All argument lists and types.", "anchors": ["javatools/__init__.py:JavaMemberInfo.get_arg_type_descriptors", "javatools/__init__.py:JavaMemberInfo.get_type_descriptor", "javatools/__init__.py:JavaMemberInfo.pretty_arg_types", "javatools/__init__.py:_pretty_type"]}
{"id": "C24", "title": "Member identifiers distinguish members", "statement": "Two methods of one class with different names, argument types, or (for bridge methods) return types have different get_identifier() values; two fields have the same identifier exactly when they have the same name.", "quantifier": "all pairs of members with valid Java names and descriptors", "why_tests_cant": "Injectivity is a claim about all pairs.", "anchors": ["javatools/__init__.py:JavaMemberInfo.get_identifier"]}
{"id": "C25", "title": "Pretty type names are the Java names", "statement": "The pretty form of any valid descriptor is its Java source name (primitive keyword, dotted class name, one [] per array dimension), and different primitive/array/class types never share a pretty name as long as class names are Java identifiers.", "quantifier": "all type descriptors of any array depth", "why_tests_cant": "Unbounded depth; injectivity over pairs.", "anchors": ["javatools/__init__.py:_pretty_type", "javatools/__init__.py:_pretty_class"]}
{"id": "C26", "title": "Provided and required symbols of a class", "statement": "get_requires never lists a symbol the class itself provides (publicly or privately), get_provides(private=False) is a subset of get_provides(private=True), both honour the ignore globs exactly, and the results do not depend on which of the (cached) accessors was called earlier.", "quantifier": "all classes, all ignore lists, all call histories", "why_tests_cant": "Caching makes results history-dependent in principle.", "anchors": ["javatools/__init__.py:JavaClassInfo.get_provides", "javatools/__init__.py:JavaClassInfo.get_requires", "javatools/__init__.py:JavaClassInfo._get_requires"]}
{"id": "C27", "title": "Disassembly inverts assembly", "statement": "Disassembling the encoding of any sequence of JVM instructions (including tableswitch, lookupswitch with alignment padding, and wide forms) yields exactly those instructions with their offsets and operands.", "quantifier": "all instruction sequences of any length with any operands", "why_tests_cant": "Padding depends on position; operands are up to 32 bits and tables unbounded.", "anchors": ["javatools/opcodes.py:disassemble", "javatools/opcodes.py:_unpack_lookupswitch", "javatools/opcodes.py:_unpack_tableswitch", "javatools/opcodes.py:_unpack_wide"]}
{"id": "C28", "title": "Disassembly covers the code exactly, or raises", "statement": "On any byte string, disassemble terminates; when it succeeds the first offset is 0, offsets strictly increase, each instruction's code is the byte at its offset and the operands end exactly where the next instruction starts, the last ending at the end of the code; it never reads past the end.", "quantifier": "all byte strings", "why_tests_cant": "All byte strings including corrupt ones.", "anchors": ["javatools/opcodes.py:disassemble", "javatools/opcodes.py:_unpack"]}
{"id": "C29", "title": "The opcode table is a bijection with correct constant-pool flags", "statement": "Opcode names and values determine each other, lookup by name ignores case, every JVM opcode 0..201 is present and no other, and has_const_arg holds exactly for the opcodes whose operand is a constant-pool index.", "quantifier": "all opcodes and names", "why_tests_cant": "The whole table against the whole specification.", "anchors": ["javatools/opcodes.py:__op", "javatools/opcodes.py:get_opcode_by_name", "javatools/opcodes.py:get_opname_by_code", "javatools/opcodes.py:has_const_arg"]}
{"id": "C30", "title": "Immediate operands have the JVM's signedness", "statement": "The value reported for every immediate operand is the value the JVM specification gives it (signed for bipush, sipush, iinc increments and branch offsets, unsigned for indices).", "quantifier": "all operand byte patterns of all opcodes", "why_tests_cant": "All operand values of all opcodes.", "anchors": ["javatools/opcodes.py:OP_bipush", "javatools/opcodes.py:OP_sipush", "javatools/opcodes.py:OP_iinc", "javatools/opcodes.py:disassemble"]}
{"id": "C31", "title": "Line lookup", "statement": "get_line_for_offset(pc) returns the line of the entry with the greatest start offset not exceeding pc, and 0 when there is none.", "quantifier": "all line number tables and all offsets", "why_tests_cant": "All tables, including unsorted ones, which the JVM allows.", "anchors": ["javatools/__init__.py:JavaCodeInfo.get_line_for_offset"]}
{"id": "C32", "title": "Grouping code by lines loses nothing", "statement": "iter_code_by_lines yields non-empty groups whose instruction lists concatenate to the disassembly in order, each labelled with the line of every one of its instructions and the line relative to the first table entry, and adjacent groups have different lines.", "quantifier": "all code blocks and line number tables", "why_tests_cant": "All tables and instruction lists.", "anchors": ["javatools/__init__.py:JavaCodeInfo.iter_code_by_lines", "javatools/__init__.py:JavaCodeInfo.get_relativelinenumbertable"]}
{"id": "C33", "title": "Merged code listings contain every instruction of both sides", "statement": "merge_code(left, right) contains, for every instruction of either method, that instruction under its relative line.", "quantifier": "all pairs of code blocks", "why_tests_cant": "Lines revisited by loops are data dependent.", "anchors": ["javatools/classdiff.py:merge_code"]}
{"id": "C34", "title": "Merged constant listings contain every index exactly once", "statement": "pretty_merge_constants yields every index from 1 to the larger pool size exactly once, in order, with each side's value or None past its end.", "quantifier": "all pairs of pools of any lengths", "why_tests_cant": "All pairs of lengths.", "anchors": ["javatools/classdiff.py:pretty_merge_constants"]}
{"id": "C35", "title": "Change trees: changed, ignored and exit status agree with the leaves", "statement": "After check, a composite change is changed exactly when one of its leaf comparisons is; it is ignored exactly when it is changed, has children and every changed child is ignored; the diff command's exit status is 0 exactly when no unignored change exists at the top level.", "quantifier": "all change trees of any shape and all ignore options", "why_tests_cant": "Trees of any shape; the composition rule is inductive.", "anchors": ["javatools/change.py:SuperChange.check_impl", "javatools/change.py:SuperChange.is_ignored", "javatools/classdiff.py:cli_classes_diff"]}
{"id": "C36", "title": "Squashing preserves the verdict", "statement": "Replacing a checked change by its squashed form preserves is_change, is_ignored (for the options used), description, label, entry and whether it is an addition or removal; replacing all children of a composite by their squashed forms preserves the composite's is_change and is_ignored.", "quantifier": "all checked change trees and all options", "why_tests_cant": "All trees.", "anchors": ["javatools/change.py:squash", "javatools/change.py:SquashedChange", "javatools/change.py:SuperChange.squash_children"]}
{"id": "C37", "title": "Sorting changes by type is a stable grouping", "statement": "The decorated collect yields exactly the collected changes (none lost, none duplicated), grouped by type in the listed order with unlisted types last, keeping the original order within a type.", "quantifier": "all sequences of changes and all type lists", "why_tests_cant": "All sequences.", "anchors": ["javatools/change.py:iterate_by_type", "javatools/change.py:collect_by_type", "javatools/change.py:yield_sorted_by_type"]}
{"id": "C38", "title": "Reports show exactly the relevant changes", "statement": "The text report prints one entry for exactly those changes all of whose ancestors (itself included) are shown: an unignored change always, an ignored change only with show_ignored (marked), an unchanged item only with show_unchanged; the JSON report's children lists follow the same rule.", "quantifier": "all change trees and option settings", "why_tests_cant": "All trees and option combinations.", "anchors": ["javatools/report.py:_indent_change", "javatools/change.py:SuperChange.simplify", "javatools/report.py:_indent"]}
{"id": "C39", "title": "A class compared with itself shows no change", "statement": "Comparing a class with (a separately loaded copy of) itself reports no change anywhere.", "quantifier": "all class files", "why_tests_cant": "All class files, including those with duplicate-signature methods or NaN constants.", "anchors": ["javatools/classdiff.py:JavaClassChange", "javatools/classdiff.py:ClassMembersChange.collect_impl", "javatools/classdiff.py:MethodCodeChange"]}
{"id": "C40", "title": "Renumbering the constant pool is only a pool change", "statement": "If two classes have the same members, code and metadata up to a renumbering of constant pool indices, the only change reported is the constant pool itself, so with --ignore-pool the result is 'no change'.", "quantifier": "all classes and all renumberings", "why_tests_cant": "All permutations of all pools.", "anchors": ["javatools/classdiff.py:CodeConstantsChange.check_impl", "javatools/classdiff.py:CodeBodyChange.check_impl", "javatools/classdiff.py:ClassConstantPoolChange"]}
{"id": "C41", "title": "Added, removed and changed members are reported exactly", "statement": "The member comparison reports a member as added exactly when its identifier occurs only on the right, removed exactly when only on the left, and compares the two members exactly when the identifier occurs on both sides; each member is reported once.", "quantifier": "all pairs of member lists with distinct identifiers per side", "why_tests_cant": "All pairs of lists.", "anchors": ["javatools/classdiff.py:ClassMembersChange.collect_impl"]}
{"id": "C42", "title": "Every change of a loaded constant is detected", "statement": "If two methods differ in the constant that some instruction loads (as a typed JVM constant), the code comparison reports a change, even when the constant pool comparison is ignored.", "quantifier": "all pairs of methods and constant pools", "why_tests_cant": "All pairs of constants; equality of dereferenced values must imply equality of constants.", "anchors": ["javatools/classdiff.py:CodeConstantsChange.check_impl", "javatools/__init__.py:JavaConstantPool.deref_const"]}
{"id": "C43", "title": "Ignore options suppress exactly their kind of change", "statement": "--ignore-version-up/down ignore exactly version changes in that direction, --ignore-platform-up/down platform changes, --ignore-absolute-lines / --ignore-relative-lines the line tables, --ignore-deprecated deprecation, --ignore-pool the pool, --ignore-added added members; comma lists given to --ignore have the effect of the individual options.", "quantifier": "all option settings and all pairs of classes", "why_tests_cant": "2^n option combinations over all pairs.", "anchors": ["javatools/classdiff.py:ClassVersionChange.is_ignored", "javatools/classdiff.py:ClassPlatformChange.is_ignored", "javatools/classdiff.py:_opt_cb_ignore", "javatools/classdiff.py:add_classdiff_optgroup"]}
{"id": "C44", "title": "Manifest lines never exceed 72 bytes", "statement": "Every line written for any key/value pair is at most 72 bytes long including its line terminator, for both line separators and for any value bytes; keys of zero or more than 68 bytes are refused.", "quantifier": "all keys and values (any Unicode), both line separators", "why_tests_cant": "All lengths; multi-byte characters make byte and character counts differ.", "anchors": ["javatools/manifest.py:write_key_val"]}
{"id": "C45", "title": "Manifests survive store and parse", "statement": "Serialising a manifest and parsing the bytes back gives an equal manifest (same main attributes in order, same sections with the same attributes), and serialising again gives the same bytes.", "quantifier": "all manifests with legal attribute names and values", "why_tests_cant": "All key/value lengths around the folding boundary, all characters.", "anchors": ["javatools/manifest.py:Manifest.parse", "javatools/manifest.py:Manifest.store", "javatools/manifest.py:parse_sections", "javatools/manifest.py:write_key_val"]}
{"id": "C46", "title": "Manifest serialisation is injective", "statement": "Two manifests (or sections) as produced by parsing that serialise to the same bytes have the same attributes; hence equal digests of serialised sections mean equal sections up to hash collisions.", "quantifier": "all pairs of parsed sections/manifests", "why_tests_cant": "Injectivity over all pairs; the folding could in principle merge different values.", "anchors": ["javatools/manifest.py:ManifestSection.store", "javatools/manifest.py:write_key_val", "javatools/manifest.py:SignatureManifest.verify_manifest_entry_checksums"]}
{"id": "C47", "title": "Manifest parsing either succeeds or reports a malformed manifest", "statement": "Parsing any byte string terminates and either yields a manifest, or raises MalformedManifest (bad line or leading continuation) or ManifestKeyException (overlong key); the detected line separator is CRLF exactly when the text contains CRLF.", "quantifier": "all byte strings", "why_tests_cant": "All byte strings.", "anchors": ["javatools/manifest.py:parse_sections", "javatools/manifest.py:Manifest.parse", "javatools/manifest.py:detect_linesep", "javatools/manifest.py:ManifestSection.__setitem__"]}
{"id": "C48", "title": "Digest attributes name their algorithms", "statement": "For a section with attributes '<alg>-Digest' the verification code tries exactly the algorithms <alg> present; attribute names of other shapes are not mistaken for digests.", "quantifier": "all sections and all algorithm names", "why_tests_cant": "rstrip removes a character set, not a suffix; correctness depends on every name.", "anchors": ["javatools/manifest.py:ManifestSection.keys_with_suffix", "javatools/manifest.py:Manifest.verify_jar_checksums"]}
{"id": "C49", "title": "A verified JAR is vouched for by the signature", "statement": "If verify() accepts a JAR then the signature block was accepted by the crypto layer for the exact bytes of the .SF file, the manifest is matched by the .SF (as a whole, or its main section and every section), and the content of every entry not exempt from verification matches a digest recorded for it in the manifest.", "quantifier": "all JARs (any entries, manifests, signature files) and certificates", "why_tests_cant": "All adversarial JARs.", "anchors": ["javatools/jarutil.py:verify", "javatools/manifest.py:SignatureManifest.verify_manifest", "javatools/manifest.py:Manifest.verify_jar_checksums"]}
{"id": "C50", "title": "Signing then verifying succeeds", "statement": "A JAR signed by sign() with a supported digest verifies with the matching certificate.", "quantifier": "all JARs with a manifest, all supported digests, all key aliases", "why_tests_cant": "All pre-existing manifests, entry names and orders.", "anchors": ["javatools/jarutil.py:sign", "javatools/jarutil.py:verify", "javatools/manifest.py:SignatureManifest.digest_manifest", "javatools/manifest.py:Manifest.add_jar_entries"]}
{"id": "C51", "title": "Tampering with a signed JAR is detected", "statement": "If a JAR verifies against the signature file produced by signing some original JAR, then every non-exempt entry of it also exists in the original with the same content, unless a digest collision or a signature forgery is exhibited.", "quantifier": "all original JARs and all modified JARs", "why_tests_cant": "All adversarial modifications.", "anchors": ["javatools/jarutil.py:verify", "javatools/jarutil.py:sign", "javatools/manifest.py:SignatureManifest.verify_manifest", "javatools/manifest.py:Manifest.verify_jar_checksums"]}
{"id": "C52", "title": "Signing an already signed JAR again replaces the signature", "statement": "Signing a JAR again with the same alias gives a JAR that verifies with the new signature.", "quantifier": "all signed JARs", "why_tests_cant": "No test signs twice; depends on duplicate archive entries.", "anchors": ["javatools/jarutil.py:sign", "javatools/jarutil.py:verify"]}
{"id": "C53", "title": "Exactly the signature-related entries are exempt from verification", "statement": "An entry is exempt from checksum verification exactly when it is the manifest, a directory, or a signature file or block directly inside META-INF; entries outside META-INF or in its subdirectories are never exempt unless they are directories.", "quantifier": "all entry names", "why_tests_cant": "All strings; case folding and globbing are involved.", "anchors": ["javatools/manifest.py:file_skips_verification", "javatools/manifest.py:file_matches_sigblock", "javatools/manifest.py:file_matches_sigfile", "javatools/manifest.py:_in_sig_related_dir"]}
{"id": "C54", "title": "Choice of the signature file", "statement": "verify() uses the only .SF file when there is one (and it matches sf_name if given), the named one when there are several, and otherwise fails; a JAR without .SF or without a matching block file is never accepted.", "quantifier": "all archives and sf_name values", "why_tests_cant": "All name lists.", "anchors": ["javatools/jarutil.py:verify"]}
{"id": "C55", "title": "Archive comparison classifies every entry exactly once", "statement": "compare_zips yields each entry name exactly once: LEFT/RIGHT when only one archive has it, SAME/DIFF for common files according to whether their contents are equal, and nothing for directory entries common to both; the collected lists are the corresponding partition.", "quantifier": "all pairs of archives, any content lengths", "why_tests_cant": "All name sets and contents, including contents that agree in size and CRC.", "anchors": ["javatools/ziputils.py:compare_zips", "javatools/ziputils.py:_different", "javatools/ziputils.py:_deep_different", "javatools/ziputils.py:collect_compare_zips_into", "javatools/ziputils.py:chunk_zip_entry"]}
{"id": "C56", "title": "Comparing two archive files by name works", "statement": "ziputils.compare(left, right) yields the same events as compare_zips on the two opened archives.", "quantifier": "all pairs of archive files", "why_tests_cant": "Depends on when the generator body runs relative to closing the files.", "anchors": ["javatools/ziputils.py:compare", "javatools/ziputils.py:open_zip"]}
{"id": "C57", "title": "Chunked checksums do not depend on the chunk size", "statement": "file_crc32 of a file equals the CRC-32 of its whole content for every chunk size, and digest_chunks of any chunking of some data equals the digests of the data.", "quantifier": "all contents and chunk sizes / chunkings", "why_tests_cant": "All sizes relative to the chunk boundary.", "anchors": ["javatools/ziputils.py:file_crc32", "javatools/manifest.py:digest_chunks", "javatools/manifest.py:file_chunk", "javatools/manifest.py:zipentry_chunk"]}
{"id": "C58", "title": "Archive roll-up counts add up", "statement": "zip_entry_rollup counts every entry once as file or directory and sums the sizes of exactly the files, for real and exploded archives; its result order is (files, dirs, compressed, uncompressed).", "quantifier": "all archives", "why_tests_cant": "All entry lists.", "anchors": ["javatools/ziputils.py:zip_entry_rollup", "javatools/jarinfo.py:cli_jar_zip_info"]}
{"id": "C59", "title": "Directory comparison reports every file exactly once", "statement": "dirutils.compare(left, right) terminates and reports every file that exists in either tree exactly once, by its relative path, as left-only, right-only, changed or same.", "quantifier": "all pairs of directory trees", "why_tests_cant": "Trees of any shape, including a name that is a file on one side and a directory on the other.", "anchors": ["javatools/dirutils.py:compare", "javatools/dirutils.py:_gen_from_dircmp"]}
{"id": "C60", "title": "copydir copies the whole tree", "statement": "copydir(orig, dest) leaves a copy of every file of orig at the same relative path under dest and returns the list of copied pairs.", "quantifier": "all directory trees of any depth", "why_tests_cant": "All nesting depths.", "anchors": ["javatools/dirutils.py:copydir", "javatools/dirutils.py:makedirsp"]}
{"id": "C61", "title": "Glob lists", "statement": "fnmatches(entry, *patterns) is true exactly when some non-empty pattern matches the whole entry under shell glob rules ('*', '?', '[...]'), so the order of patterns does not matter and adding patterns never removes a match.", "quantifier": "all strings and pattern lists", "why_tests_cant": "All strings.", "anchors": ["javatools/dirutils.py:fnmatches"]}
{"id": "C62", "title": "Parallel distribution reports equal sequential ones", "statement": "The outcome of DistReport (list of child results in order, overall changed flag) is the same for every number of worker processes and every interleaving of the workers, and equals the sequential outcome; every sub-report is run exactly once.", "quantifier": "all task lists, worker counts and schedules", "why_tests_cant": "Exponentially many interleavings.", "anchors": ["javatools/distdiff.py:DistReport.mp_check_impl", "javatools/distdiff.py:_mp_run_check", "javatools/distdiff.py:DistReport.check_impl"]}
{"id": "C63", "title": "distdiff reports every changed file", "statement": "If a file present in both distributions differs, the comparison reports a change (unless ignored).", "quantifier": "all pairs of distributions", "why_tests_cant": "All file kinds and contents.", "anchors": ["javatools/distdiff.py:DistContentChange", "javatools/distdiff.py:DistChange.collect_impl", "javatools/change.py:SuperChange.check_impl"]}
{"id": "C64", "title": "Whitespace-only text changes", "statement": "With ignore_trailing_whitespace a changed text file is ignored exactly when the two files are line-by-line equal up to trailing whitespace; without it every text difference is reported.", "quantifier": "all pairs of text files", "why_tests_cant": "All contents.", "anchors": ["javatools/distdiff.py:DistTextChange.check", "javatools/distdiff.py:DistTextChange.is_ignored", "javatools/distdiff.py:DistTextChange.collect_impl"]}
{"id": "C65", "title": "JAR-level requires are external", "statement": "JarInfo.get_requires maps every symbol required by some class of the JAR and not provided (publicly or privately) by any class of it to exactly the classes requiring it, and get_provides maps every public symbol to exactly its providers; ignore globs filter exactly the matching keys.", "quantifier": "all JARs with any number of classes", "why_tests_cant": "All class sets.", "anchors": ["javatools/jarinfo.py:JarInfo._collect_requires_provides", "javatools/jarinfo.py:JarInfo.get_requires"]}
{"id": "C66", "title": "Distribution-level requires are external", "statement": "DistInfo.get_requires maps every symbol required by some JAR or loose class and not provided inside the distribution to its requirers.", "quantifier": "all distributions", "why_tests_cant": "All sets of JARs and classes.", "anchors": ["javatools/distinfo.py:DistInfo._collect_requires_provides"]}
{"id": "C67", "title": "jardiff entry classification", "statement": "Every entry event of the archive comparison yields exactly one change object of the kind determined by the entry's name and event (manifest, signature file, signature block, class, other), changed exactly for added, removed and differing entries.", "quantifier": "all entry names and events", "why_tests_cant": "All names.", "anchors": ["javatools/jardiff.py:JarContentsChange"]}
{"id": "C68", "title": "Manifest differences and ignored keys", "statement": "The manifest comparison reports exactly the main section and each section as changed, added or removed; with ignore_manifest_key a changed section is ignored exactly when every attribute that differs has an ignored name.", "quantifier": "all pairs of manifests and key lists", "why_tests_cant": "All pairs.", "anchors": ["javatools/manifest.py:ManifestChange.collect_impl", "javatools/manifest.py:ManifestSectionChange.is_ignored", "javatools/manifest.py:ManifestMainChange.is_ignored"]}
{"id": "C69", "title": "Manifest section bookkeeping", "statement": "After any history of create_section and attribute assignments, each section name maps to one section whose primary attribute is its name (unless reassigned), attribute order is first-assignment order, no key exceeds 68 characters, and create_section(overwrite=False) never loses data.", "quantifier": "all histories of operations", "why_tests_cant": "Histories.", "anchors": ["javatools/manifest.py:Manifest.create_section", "javatools/manifest.py:ManifestSection.__setitem__", "javatools/manifest.py:Manifest.clear"]}
{"id": "C70", "title": "Ignored manifest keys are case-insensitive", "statement": "--ignore-manifest-key matches attribute names without regard to case, as its help text says: a changed section is ignored exactly when every attribute that differs matches a given key up to case.", "quantifier": "all pairs of sections and key lists", "why_tests_cant": "All names, spellings and sections.", "anchors": ["javatools/jardiff.py:add_jardiff_optgroup", "javatools/manifest.py:ManifestSectionChange.is_ignored", "javatools/manifest.py:ManifestMainChange.is_ignored"]}
{"id": "C71", "title": "Reports do not change jardiff's verdict", "statement": "jardiff with report files gives the exit status (or exception) that jardiff without reports gives: replacing class comparisons by squashed summaries loses neither a change nor an ignored change.", "quantifier": "all pairs of archives and all options", "why_tests_cant": "All archives and option sets.", "anchors": ["javatools/jardiff.py:JarContentsReport.check_impl", "javatools/jardiff.py:JarReport.check", "javatools/change.py:squash"]}
{"id": "C72", "title": "Equal JARs are equal", "statement": "Two JAR files with the same entry names and the same contents give exit status 0 with every option set, even when classes or manifests in them cannot be parsed.", "quantifier": "all pairs of archives with equal files, all options", "why_tests_cant": "All archives.", "anchors": ["javatools/jardiff.py:JarContentsChange", "javatools/jardiff.py:cli_jars_diff"]}
{"id": "C73", "title": "jardiff exit status", "statement": "When jardiff of two JAR files ends, its status is 1 exactly if some entry is a change that is not ignored; an entry in only one JAR, and a plain file or signature block with different contents, always makes it 1 unless --ignore-jar-entry (or for signatures ignore_jar_signature) covers it; if every differing entry is covered it is 0.", "quantifier": "all pairs of archives, entries and options", "why_tests_cant": "All archives and options.", "anchors": ["javatools/jardiff.py:cli_jars_diff", "javatools/jardiff.py:JarContentChange.is_ignored", "javatools/jardiff.py:JarSignatureFileChange.is_ignored"]}
{"id": "C74", "title": "Files of a distribution are compared by kind", "statement": "The comparison of two distributions makes exactly one object per event of the directory comparison; its class follows from the event, shallow mode and the ending of the name (JAR, class, text, manifest, other); when it ends, the status is 1 exactly if one of these objects is a change that is not ignored, and a file on one side only always is a change.", "quantifier": "all pairs of directory trees, all options", "why_tests_cant": "All trees and names.", "anchors": ["javatools/distdiff.py:DistChange.collect_impl", "javatools/distdiff.py:cli_dist_diff"]}
{"id": "C75", "title": "Reports do not change the verdict of distdiff", "statement": "distdiff with reports, with any number of worker processes, gives the exit status it gives without reports, whenever it ends.", "quantifier": "all pairs of directory trees, all options, all schedules of the workers", "why_tests_cant": "All trees and schedules.", "anchors": ["javatools/distdiff.py:DistReport.check_impl", "javatools/distdiff.py:DistJarReport", "javatools/change.py:squash"]}
{"id": "C76", "title": "Equal distributions are equal", "statement": "Two directory trees with the same files and contents give exit status 0 with every option set.", "quantifier": "all pairs of trees with equal files", "why_tests_cant": "All trees.", "anchors": ["javatools/distdiff.py:DistChange.collect_impl", "javatools/dirutils.py:compare"]}
{"id": "C77", "title": "--ignore-filenames covers matching files", "statement": "A file whose path relative to the distribution matches a pattern of --ignore-filenames is ignored, whatever its kind and whatever happened to it.", "quantifier": "all trees, files and patterns", "why_tests_cant": "All patterns and paths.", "anchors": ["javatools/distdiff.py:DistContentChange.is_ignored", "javatools/dirutils.py:fnmatches"]}
{"id": "C78", "title": "Text and JSON reports of a JAR list the same symbols", "statement": "jarinfo --jar-requires and --jar-provides print, as text, each key of the map that the JSON report has for the same --api-ignore patterns exactly once and nothing else, in sorted order.", "quantifier": "all JARs, all ignore patterns", "why_tests_cant": "All class sets and patterns.", "anchors": ["javatools/jarinfo.py:cli_jar_requires", "javatools/jarinfo.py:cli_jar_provides", "javatools/jarinfo.py:cli_jarinfo_json"]}
{"id": "C79", "title": "The class reader accepts exactly class files", "statement": "unpack_class succeeds on data exactly when the data starts with the encoding of a class file structure (magic, versions, constant pool entries filling the declared count, access and class indices, interfaces, fields, methods, attributes whose names can be looked up), and the returned object is that structure's; nothing else is ever accepted.", "quantifier": "all byte strings and streams, all recursion limits", "why_tests_cant": "A converse over all byte strings: no finite set of malformed files shows that nothing else is accepted.", "anchors": ["javatools/__init__.py:unpack_class", "javatools/__init__.py:JavaClassInfo.unpack", "javatools/__init__.py:JavaConstantPool.unpack"]}
{"id": "C80", "title": "Standard attributes decode exactly", "statement": "get_code, get_exceptions, get_constantvalue, get_innerclasses, get_linenumbertable, the local variable tables, signatures and source files succeed exactly when the attribute starts with the encoding of the structure of the JVM specification, and return that structure; without the attribute they return None or an empty table. get_enclosingmethod gives the class and method named.", "quantifier": "all attribute bytes, all pools", "why_tests_cant": "Exact acceptance over all byte strings.", "anchors": ["javatools/__init__.py:JavaMemberInfo.get_code", "javatools/__init__.py:JavaCodeInfo.unpack", "javatools/__init__.py:JavaCodeInfo.get_linenumbertable", "javatools/__init__.py:JavaClassInfo.get_innerclasses", "javatools/__init__.py:JavaClassInfo.get_enclosingmethod"]}
{"id": "C81", "title": "Unpacking a class whose magic was already read", "statement": "unpack_class given the four magic bytes (as a str, bytes or tuple) unpacks the rest of the data exactly as it unpacks the whole data without that argument.", "quantifier": "all data, all three forms of the argument", "why_tests_cant": "All class data; the documented forms are untested.", "anchors": ["javatools/__init__.py:unpack_class", "javatools/__init__.py:JavaClassInfo.unpack"]}
{"id": "C82", "title": "Malformed class data raises only documented exceptions", "statement": "Whatever the data, unpack_class returns or raises ClassUnpackException, UnpackException or Unimplemented.", "quantifier": "all byte strings, all recursion limits", "why_tests_cant": "All byte strings.", "anchors": ["javatools/__init__.py:unpack_class", "javatools/__init__.py:_unpack_const_item", "javatools/__init__.py:JavaConstantPool.deref_const"]}
{"id": "C83", "title": "Every constant has a text", "statement": "pretty_deref_const of every constant of a well-typed pool returns its Java text: the value of numbers and strings, the dotted name of classes, Class.name:type for fields, Class.name(args):type for methods, name:type for name-and-types.", "quantifier": "all well-typed pools, all indices", "why_tests_cant": "All pools and descriptors.", "anchors": ["javatools/__init__.py:JavaConstantPool.pretty_deref_const", "javatools/__init__.py:_pretty_const_type_val"]}
{"id": "C84", "title": "Exception handlers compare by meaning and print", "statement": "Two exception handlers are equal exactly when their range, handler and caught class are, whatever the numbering of the pools; info() gives these; str() gives a text.", "quantifier": "all pools and handlers", "why_tests_cant": "All renumberings of pools.", "anchors": ["javatools/__init__.py:JavaExceptionInfo"]}
{"id": "C85", "title": "manifest create records an archive", "statement": "`manifest c` on a JAR makes a section for exactly each file of the archive (no directories) whose name neither META-INF/* nor a given pattern matches; the section holds the name and the digest of the content under each requested algorithm and nothing else.", "quantifier": "all archives with named entries, all lists of supported digests, at most one --ignore", "why_tests_cant": "All archives and pattern lists.", "anchors": ["javatools/manifest.py:cli_create", "javatools/manifest.py:single_path_generator"]}
{"id": "C86", "title": "A created manifest verifies its archive", "statement": "Verification of a JAR against the manifest `manifest c` makes from it reports no failures.", "quantifier": "all archives, digests and Unicode case mappings", "why_tests_cant": "All archives.", "anchors": ["javatools/manifest.py:cli_create", "javatools/manifest.py:Manifest.verify_jar_checksums"]}
{"id": "C87", "title": "manifest create on a directory uses relative paths", "statement": "`manifest c` on a directory records every file that no pattern matches under its path relative to the directory.", "quantifier": "all directory trees and options", "why_tests_cant": "All trees; names that collide.", "anchors": ["javatools/manifest.py:directory_generator", "javatools/manifest.py:single_path_generator"]}
{"id": "C88", "title": "manifest create -r records a directory", "statement": "With -r every file below the given directory that no pattern matches is recorded under its path.", "quantifier": "all directory trees and options", "why_tests_cant": "All trees.", "anchors": ["javatools/manifest.py:multi_path_generator", "javatools/manifest.py:cli_create"]}
{"id": "C89", "title": "--ignore can be given more than once", "statement": "The patterns of several --ignore options count as if given with one.", "quantifier": "all command lines", "why_tests_cant": "All command lines.", "anchors": ["javatools/manifest.py:cli_create"]}
{"id": "C90", "title": "manifest create writes the manifest", "statement": "The manifest that was built is written to the named file, or to standard output by default.", "quantifier": "all inputs", "why_tests_cant": "All inputs.", "anchors": ["javatools/manifest.py:cli_create"]}
{"id": "C91", "title": "manifest verify reports exactly the bad entries", "statement": "`manifest v` prints exactly the entries that are not exempt and match no recorded digest, in order; the status is 0 if there are none, 1 if there are some, 2 for wrong usage; an archive without a manifest raises MissingManifestError.", "quantifier": "all archives with ASCII names whose digests are of known algorithms, all case mappings", "why_tests_cant": "All archives and manifests.", "anchors": ["javatools/manifest.py:cli_verify"]}
{"id": "C92", "title": "manifest query answers", "statement": "`manifest q` answers each query with one line in order: `key` with the value in the main section, `section:key` with the value in that section, None for a missing key, and `No such section`.", "quantifier": "all manifests and queries", "why_tests_cant": "Section names with colons.", "anchors": ["javatools/manifest.py:cli_query"]}
{"id": "C93", "title": "strict=False accepts entries without digests", "statement": "verify_jar_checksums with strict=False does not report entries for which no digest is recorded.", "quantifier": "all manifests and archives", "why_tests_cant": "All manifests.", "anchors": ["javatools/manifest.py:Manifest.verify_jar_checksums"]}
{"id": "C94", "title": "Commands by name or abbreviation", "statement": "The manifest tool runs create, query and verify, and jarutil create, sign and verify, when given the name or an abbreviation of it; anything else shows the usage.", "quantifier": "all command words", "why_tests_cant": "All words.", "anchors": ["javatools/manifest.py:main", "javatools/jarutil.py:main"]}
{"id": "C95", "title": "jarutil create holds exactly the given files", "statement": "The new archive has META-INF/, an empty manifest, and exactly the given files and all files and directories below the given directories, with their content; a missing argument raises; the manifest can be read back.", "quantifier": "all lists of existing paths below the working directory and all trees", "why_tests_cant": "All trees and argument lists.", "anchors": ["javatools/jarutil.py:create_jar"]}
{"id": "C96", "title": "jarutil sign exit status", "statement": "The status is 0 exactly if the archive was signed, and then the signed archive is written; otherwise nothing is; no manifest gives 2, an unknown key type 1.", "quantifier": "all archives, keys and signature schemes", "why_tests_cant": "All archives and failures.", "anchors": ["javatools/jarutil.py:cli_sign_jar"]}
{"id": "C97", "title": "jarutil verify exit status", "statement": "`jarutil v` on an archive that can be opened ends with status 0 exactly if the archive is accepted, 1 if it is refused or the number of arguments is wrong, -1 if M2Crypto is missing; no exception escapes.", "quantifier": "all archives, arguments and signature schemes", "why_tests_cant": "All archives and all ways a check can end.", "anchors": ["javatools/jarutil.py:cli_verify_jar_signature"]}
{"id": "C98", "title": "classinfo terse listing", "statement": "Without options, classinfo prints the declaration of the class and, between braces, one line for each public field and then each public method, in the order of the class file; --package adds the protected members, --private all, --header shows none.", "quantifier": "all classes, options and members", "why_tests_cant": "All classes and all combinations of access flags.", "anchors": ["javatools/classinfo.py:cli_print_classinfo", "javatools/classinfo.py:should_show", "javatools/classinfo.py:print_field", "javatools/classinfo.py:print_method"]}
{"id": "C99", "title": "classinfo -c lists the instructions", "statement": "The listing of a method's code has one line per instruction, in order, with its offset, mnemonic and operands, and the listing determines the instructions.", "quantifier": "all sequences of valid JVM instructions", "why_tests_cant": "All instruction sequences, including switches of any size.", "anchors": ["javatools/classinfo.py:print_method", "javatools/opcodes.py:disassemble"]}
{"id": "C100", "title": "classinfo --json", "statement": "A class that can be listed as text can be listed as JSON.", "quantifier": "all classes and options", "why_tests_cant": "All classes; the repository never runs the JSON report on a class with members.", "anchors": ["javatools/classinfo.py:cli_simplify_classinfo", "javatools/classinfo.py:cli_simplify_fields", "javatools/classinfo.py:cli_simplify_methods"]}
{"id": "C101", "title": "classinfo shows the class version", "statement": "The lines \"minor version\" and \"major version\" of the header show the minor and the major version of the class file.", "quantifier": "all versions", "why_tests_cant": "All 2^32 versions.", "anchors": ["javatools/classinfo.py:cli_print_classinfo"]}
{"id": "C102", "title": "classinfo -p lists the constants", "statement": "The listing has one line per constant, in order, with its index, type and value, nothing for unused slots, and it determines the constants.", "quantifier": "all constant pools", "why_tests_cant": "All pools, all strings.", "anchors": ["javatools/classinfo.py:cli_print_classinfo", "javatools/__init__.py:_pretty_const_type_val"]}
{"id": "C103", "title": "Declarations of members", "statement": "The declaration shown for a field or method is its keywords, type, name, argument types and exceptions in Java order, and it determines them.", "quantifier": "all members with Java names", "why_tests_cant": "All names, types and combinations of flags.", "anchors": ["javatools/__init__.py:JavaMemberInfo.pretty_descriptor"]}
{"id": "C104", "title": "Declarations of classes", "statement": "The declaration shown for a class is its keywords, name, superclass and interfaces with single blanks between them.", "quantifier": "all classes", "why_tests_cant": "All names and combinations of flags.", "anchors": ["javatools/__init__.py:JavaClassInfo.pretty_descriptor"]}
{"id": "C105", "title": "classinfo numbers annotations", "statement": "The annotations of a class or member are numbered 0, 1, 2, \u2026 in the order of the file.", "quantifier": "all lists of annotations", "why_tests_cant": "All lists of annotations.", "anchors": ["javatools/classinfo.py:print_field", "javatools/classinfo.py:print_method", "javatools/classinfo.py:cli_print_classinfo"]}
{"id": "C106", "title": "classinfo --class-provides and --class-requires", "statement": "The provided (required) symbols of the class are printed, each once, in order.", "quantifier": "all classes and ignore patterns", "why_tests_cant": "All classes.", "anchors": ["javatools/classinfo.py:cli_class_provides", "javatools/classinfo.py:cli_class_requires"]}
{"id": "C107", "title": "classinfo on several files", "statement": "The output is that of the files one after the other; the first exception ends it, after everything before has been printed.", "quantifier": "all lists of files", "why_tests_cant": "All lists of files and all failures.", "anchors": ["javatools/classinfo.py:cli", "javatools/classinfo.py:cli_print_class"]}
{"id": "C108", "title": "classinfo --verbose lists exceptions", "statement": "The verbose listing of a method has the exceptions it declares, under a heading if there are some.", "quantifier": "all methods", "why_tests_cant": "All methods.", "anchors": ["javatools/classinfo.py:print_method"]}
{"id": "C109", "title": "classinfo -l and -o", "statement": "The tables of line numbers and local variables are printed row by row with the numbers of the class file and the strings the constants stand for; the line number table can be read back. They are printed behind the code of the method, the line numbers with -l, the local variables with -o, and both with --verbose.", "quantifier": "all tables", "why_tests_cant": "All tables.", "anchors": ["javatools/classinfo.py:print_method"]}
{"id": "C110", "title": "--report selects the formats it names", "statement": "A comparison writes a report in a format exactly if some --report option names the format in its comma-separated list; naming it twice changes nothing.", "quantifier": "all lists of --report options", "why_tests_cant": "The lists are unbounded.", "anchors": ["javatools/report.py:_opt_cb_report", "javatools/report.py:Reporter.add_formats_by_name"]}
{"id": "C111", "title": "A reporter writes each of its formats once", "statement": "After any sequence of calls of add_report_format, setup, run and clear, run writes one report in each format that was added.", "quantifier": "all reporters and sequences of calls", "why_tests_cant": "The sequences are unbounded.", "anchors": ["javatools/report.py:Reporter.setup", "javatools/report.py:Reporter.run"]}
{"id": "C112", "title": "Reports stay in the report directory", "statement": "Every file written as a report of a comparison lies below the report directory.", "quantifier": "all archives, report directories and formats", "why_tests_cant": "The entry names are unbounded and chosen by the author of the JAR.", "anchors": ["javatools/report.py:Reporter.subreporter", "javatools/report.py:ReportFormat.run", "javatools/jardiff.py:JarContentsReport.collect_impl"]}
{"id": "C113", "title": "Reports do not overwrite each other", "statement": "No two reports of a comparison are the same file, and no report takes the place of a directory that another one needs.", "quantifier": "all archives, report directories and formats", "why_tests_cant": "All pairs of entry names.", "anchors": ["javatools/report.py:Reporter.subreporter", "javatools/jardiff.py:JarContentsReport.collect_impl", "javatools/distdiff.py:DistReport.collect_impl"]}
{"id": "C114", "title": "Breadcrumbs lead to the reports above", "statement": "On the HTML page of a sub-report, each breadcrumb is labelled with the name of a report above it, in order, and is a link that leads to the HTML page of that report.", "quantifier": "all working directories, report directories and chains of sub-reports below them", "why_tests_cant": "The depth of sub-reports and the paths are unbounded.", "anchors": ["javatools/report.py:Reporter.get_relative_breadcrumbs", "javatools/cheetah/report.tmpl"]}
{"id": "C115", "title": "Details links lead to the sub-report", "statement": "On the HTML page of a report, the link at an entry leads to the HTML page of the report of that entry.", "quantifier": "all report directories and entries", "why_tests_cant": "The names are unbounded.", "anchors": ["javatools/cheetah/change_SquashedChange.tmpl", "javatools/report.py:Reporter.subreporter"]}
{"id": "C116", "title": "Escaped text shows as the text", "statement": "A page with the escaped text shows the text; the escaped text has no < or >, each & in it begins a character reference, and different texts are escaped differently.", "quantifier": "all texts", "why_tests_cant": "The texts are unbounded.", "anchors": ["javatools/cheetah/__init__.py:xml_entity_escape"]}
{"id": "C117", "title": "Links to style sheets and scripts", "statement": "A style sheet or script given as the name of an existing file is linked from every page by a link that leads to that file; other addresses are left as they are.", "quantifier": "all names, working directories and report directories", "why_tests_cant": "The paths are unbounded.", "anchors": ["javatools/report.py:CheetahReportFormat._relative"]}
{"id": "C118", "title": "The data of HTML reports is copied once", "statement": "However many HTML reports are set up with the same options, the data is copied once; the copied scripts and style sheets come first and those given on the command line stay in their order.", "quantifier": "all numbers of reports, options and copied files", "why_tests_cant": "The number of reports is unbounded.", "anchors": ["javatools/report.py:CheetahReportFormat.setup"]}
{"id": "C119", "title": "The manifest listing is faithful", "statement": "jarinfo --manifest prints every attribute of the main section and of every sub-section exactly once, sections in the order of their names and attributes in the order of their keys, and two JARs get the same listing exactly if their manifests have the same attributes, whatever the order in the file.", "quantifier": "all pairs of JARs with manifests that can be parsed", "why_tests_cant": "Injectivity over all pairs of manifests; a key or value that imitates a line of the listing would only show on one specific input.", "anchors": ["javatools/jarinfo.py:cli_jar_manifest_info", "javatools/manifest.py:Manifest.load_from_jar"]}
{"id": "C120", "title": "A JAR without a manifest is reported as such", "statement": "jarinfo --manifest prints \"Manifest not present.\" exactly for JARs without META-INF/MANIFEST.MF.", "quantifier": "all JARs", "why_tests_cant": "The message is on a branch that no input reaches; only a statement about all JARs shows that.", "anchors": ["javatools/jarinfo.py:cli_jar_manifest_info", "javatools/manifest.py:Manifest.load_from_jar"]}
{"id": "C121", "title": "jarinfo prints the requested parts in order", "statement": "The report of a JAR is the reports for the single options, in the order zip, manifest, provides, requires, classes, independently of what earlier parts have cached; the classes part has each class entry once, in archive order, with its classinfo listing; the first failure ends the report and all later files, and what came before is printed.", "quantifier": "all combinations of options, all lists of files, all archives", "why_tests_cant": "All combinations of options, cached states and failing entries.", "anchors": ["javatools/jarinfo.py:cli_jarinfo", "javatools/jarinfo.py:cli_jar_classes", "javatools/jarinfo.py:cli"]}
{"id": "C122", "title": "Text and JSON reports list the same symbols", "statement": "jarinfo and distinfo list the provided and required symbols that no ignore pattern matches, sorted and each once, and the JSON document has exactly these symbols as keys.", "quantifier": "all JARs, distributions, ignore patterns", "why_tests_cant": "All archives and pattern lists; the two formats filter at different places.", "anchors": ["javatools/jarinfo.py:cli_jar_provides", "javatools/jarinfo.py:cli_jar_requires", "javatools/jarinfo.py:cli_jarinfo_json", "javatools/distinfo.py:cli_distinfo", "javatools/distinfo.py:cli_distinfo_json"]}
{"id": "C123", "title": "jarinfo --zip shows the size of any archive", "statement": "jarinfo --zip, as text and as JSON, gives the numbers of files and directories and the uncompressed and compressed sizes of the files of any archive.", "quantifier": "all archives", "why_tests_cant": "All entry lists, including those without data.", "anchors": ["javatools/jarinfo.py:cli_jar_zip_info", "javatools/jarinfo.py:cli_jarinfo_json"]}
{"id": "C124", "title": "JSON reports answer what was asked", "statement": "With --json, jarinfo succeeds on a JAR exactly if the text report with the same options does, and distinfo heeds the options it accepts.", "quantifier": "all combinations of options, all JARs", "why_tests_cant": "Options that are accepted and silently dropped do not fail any run.", "anchors": ["javatools/jarinfo.py:cli_jarinfo_json", "javatools/distinfo.py:cli", "javatools/distinfo.py:create_optparser"]}
{"id": "C125", "title": "A directory opened as an archive lists its tree", "statement": "A directory opened as an archive (ExplodedZipFile) has one member for each regular file and each directory below it and nothing else (no links, no special files), named by its relative path (directories with a slash at the end) in sorted order without repetitions; the record of a file has its size and CRC-32, that of a directory is empty; getinfo of any other name is None; every listed file can be read and gives the content of the file; the roll-up of the members is the number of files, of directories and of bytes; after close the lists raise and reading works as before.", "quantifier": "all directory trees with legal names, with links and special files; all paths", "why_tests_cant": "Trees are unbounded in depth and width.", "anchors": ["javatools/ziputils.py:_collect_infos", "javatools/ziputils.py:ExplodedZipFile", "javatools/ziputils.py:zip_entry_rollup"]}
{"id": "C126", "title": "Only members of an exploded archive can be read", "statement": "What ExplodedZipFile.read returns for a name is the content of a listed member of that name; no other file of the system can be read through the archive.", "quantifier": "all directory trees, all surroundings of the directory, all names", "why_tests_cant": "The names that must not be readable are unbounded.", "anchors": ["javatools/ziputils.py:ExplodedZipFile.open", "javatools/ziputils.py:ExplodedZipFile.read"]}
{"id": "C127", "title": "is_zipstream tells archives from other data and rewinds", "statement": "For bytes, buffers and streams, is_zipstream answers True for data with an end-of-archive record after which at most a comment follows, False for data without the signature, and leaves a stream at its position.", "quantifier": "all contents, all positions, all kinds of streams", "why_tests_cant": "Contents are unbounded; the signature may be anywhere in the last 64 KiB.", "anchors": ["javatools/ziputils.py:is_zipstream"]}
{"id": "C128", "title": "Archives that are opened are closed", "statement": "closing gives a context which closes the object exactly once, after the body, also if the body raises, and never swallows the exception; open_zip opens directories and archives and raises for anything else; comparing two archives by name leaves neither open, whether opening the second one or the comparison raises.", "quantifier": "all objects, all bodies, all paths", "why_tests_cant": "Every point at which an exception may occur.", "anchors": ["javatools/dirutils.py:closing", "javatools/dirutils.py:ClosingContext", "javatools/ziputils.py:zip_file", "javatools/ziputils.py:open_zip", "javatools/ziputils.py:collect_compare_into"]}
{"id": "C129", "title": "Comparison results are collected by kind", "statement": "collect_compare_into and collect_compare_zips_into append each entry to the list for its kind in the order of the comparison, keep what the lists held, leave out the lists that are None; with new lists they give collect_compare; by name the archives are compared while they are open.", "quantifier": "all sequences of events, all initial lists, all archives", "why_tests_cant": "All sequences.", "anchors": ["javatools/ziputils.py:collect_compare_zips_into", "javatools/ziputils.py:collect_compare", "javatools/dirutils.py:collect_compare_into"]}
{"id": "C130", "title": "The HTML template of a change is the most specific one", "statement": "resolve_cheetah_template gives the template of the class itself or of a superclass such that no other superclass with a template is more specific; it raises exactly if no superclass has a template, which is the case for no change class of the package.", "quantifier": "all class hierarchies with single and multiple inheritance, and all sets of templates", "why_tests_cant": "All hierarchies: subclasses with several bases are resolved by Python's method resolution order, of which a test sees one instance.", "anchors": ["javatools/report.py:resolve_cheetah_template", "javatools/report.py:_compose_cheetah_template_map"]}
{"id": "C131", "title": "The template map does not depend on earlier calls", "statement": "Every call of cheetah_template_map gives what the first gave, a map or an exception.", "quantifier": "all sets of templates and modules", "why_tests_cant": "All sets of templates; a test has only those of the package, for which nothing goes wrong.", "anchors": ["javatools/report.py:cheetah_template_map", "javatools/report.py:_compose_cheetah_template_map"]}
{"id": "C132", "title": "JSON data of a code constants change lists each differing instruction", "statement": "Whenever the comparison of two method bodies finds the same opcodes at the same offsets and differing operands, the old and new data of the change in a JSON report list, in the order of the code, every instruction whose operands differ, with offset, mnemonic and the constant of that side.", "quantifier": "all constant pools, all method bodies, all positions", "why_tests_cant": "Any number of instructions may differ, among any others, with any constants in any order of the pools; tests have a few compiled classes.", "anchors": ["javatools/classdiff.py:CodeConstantsChange.fn_pretty", "javatools/classdiff.py:CodeConstantsChange.check_impl"]}
{"id": "C133", "title": "A checked code comparison can be written as JSON", "statement": "If the code constants and code body comparisons of two method bodies could be checked, their data for the JSON report can be made, and for the code body it is the offset, mnemonic and operands of every instruction of each side.", "quantifier": "all constant pools and method bodies", "why_tests_cant": "The constants at which it goes wrong are rare kinds, and bodies that break off behind a difference are not made by compilers.", "anchors": ["javatools/classdiff.py:CodeConstantsChange.fn_pretty", "javatools/classdiff.py:CodeBodyChange.fn_pretty", "javatools/change.py:GenericChange.simplify"]}
{"id": "C134", "title": "Options and files of the tools can be given in any order", "statement": "A command line of classdiff, jardiff, distdiff, classinfo, jarinfo or distinfo that is made of well-formed options (long, short, abbreviated, several short ones in a word, arguments in the next word, behind an equals sign or attached) and as many file names as the tool takes (two to compare; one distribution, or at least one class or JAR, to inspect) is accepted in whatever order they come: the options take effect in the order given, and the names are the files to work on.", "quantifier": "all six tools, all sequences of options in all spellings, all file names and arguments", "why_tests_cant": "The sequences of options, spellings and names are unbounded; tests call the tools with one or two fixed command lines.", "anchors": ["javatools/classdiff.py:create_optparser", "javatools/jardiff.py:create_optparser", "javatools/distdiff.py:create_optparser", "javatools/classdiff.py:add_general_optgroup", "javatools/classdiff.py:add_classdiff_optgroup", "javatools/jardiff.py:add_jardiff_optgroup", "javatools/distdiff.py:add_distdiff_optgroup", "javatools/report.py:add_general_report_optgroup", "javatools/classinfo.py:create_optparser", "javatools/jarinfo.py:create_optparser", "javatools/distinfo.py:create_optparser", "javatools/classinfo.py:add_classinfo_optgroup", "javatools/jarinfo.py:add_jarinfo_optgroup", "javatools/distinfo.py:add_distinfo_optgroup"]}
{"id": "C135", "title": "Every accepted command line names as many files as the tool takes", "statement": "If the parser of classdiff, jardiff, distdiff, classinfo, jarinfo or distinfo accepts a command line at all, exactly as many of its words as the tool takes (two to compare; one distribution, or at least one class or JAR, to inspect), in their order, are the files; otherwise the tool exits with status 2, or 0 after showing help. In particular the functions that make default options by parsing an empty command line always exit.", "quantifier": "all lists of words whatsoever", "why_tests_cant": "All strings may occur as words, including malformed options; tests use well-formed command lines.", "anchors": ["javatools/classdiff.py:create_optparser", "javatools/jardiff.py:create_optparser", "javatools/distdiff.py:create_optparser", "javatools/classdiff.py:default_classdiff_options", "javatools/jardiff.py:default_jardiff_options", "javatools/distdiff.py:default_distdiff_options", "javatools/classinfo.py:create_optparser", "javatools/jarinfo.py:create_optparser", "javatools/distinfo.py:create_optparser"]}
{"id": "C136", "title": "Long options may be abbreviated as long as they are unambiguous", "statement": "A beginning of a long option of any of the six tools that begins no other means the same as the whole option anywhere before --, with or without an argument behind an equals sign; one that begins several and is none itself is refused with exit status 2 wherever it stands before --.", "quantifier": "all six tools, all abbreviations, all surrounding words", "why_tests_cant": "An ambiguity depends on all options of a tool and the rest of the command line is arbitrary; tests spell the options out.", "anchors": ["javatools/classdiff.py:create_optparser", "javatools/jardiff.py:create_optparser", "javatools/distdiff.py:create_optparser", "javatools/classinfo.py:create_optparser", "javatools/jarinfo.py:create_optparser", "javatools/distinfo.py:create_optparser"]}
{"id": "C137", "title": "The exit status of classdiff depends on what options are given, not how", "statement": "For two silent runs of classdiff without reports on the same two files, if the options given set the same ignore attributes, the outcome is the same: the spelling of the options, their order, their repetition and their place before or behind the files make no difference, nor do other options.", "quantifier": "all classes, all command lines of well-formed options around the two files", "why_tests_cant": "It relates all pairs of equivalent command lines and all pairs of classes.", "anchors": ["javatools/classdiff.py:main", "javatools/classdiff.py:cli", "javatools/classdiff.py:cli_classes_diff", "javatools/classdiff.py:create_optparser"]}
{"id": "C138", "title": "classinfo reports what the options say, whatever their order", "statement": "classinfo reports on the files in the order in which they are named. Which members it shows is decided by the last of --header, --public, --package and --private, the patterns of --api-ignore are taken together in their order, and every other option counts by being given; how the options are spelled, their order otherwise, and whether they stand before or behind the files make no difference.", "quantifier": "all command lines of well-formed options around the files, all contents of the files", "why_tests_cant": "It relates all pairs of equivalent command lines on arbitrary class files.", "anchors": ["javatools/classinfo.py:main", "javatools/classinfo.py:cli", "javatools/classinfo.py:create_optparser", "javatools/classinfo.py:add_classinfo_optgroup", "javatools/classinfo.py:cli_json_class"]}
{"id": "C139", "title": "jarinfo and distinfo report what the options say", "statement": "jarinfo reports on the JARs in the order in which they are named, with each option in effect that is given and no other (the last one for visibility, the patterns in order), as text or JSON. distinfo does so for the one distribution; of the many options it takes, only --json, --api-ignore, --dist-provides and --dist-requires make a difference.", "quantifier": "all command lines of well-formed options around the files, all contents of the files", "why_tests_cant": "It covers all combinations and orders of some twenty options and arbitrary files.", "anchors": ["javatools/jarinfo.py:main", "javatools/jarinfo.py:cli", "javatools/jarinfo.py:create_optparser", "javatools/distinfo.py:main", "javatools/distinfo.py:cli", "javatools/distinfo.py:create_optparser"]}
{"id": "C140", "title": "classdiff writes the report and returns the status that the options ask for", "statement": "classdiff with two class files and no --report ends with the exception that reading or comparing raises, or else its exit status is 0 exactly if the classes do not differ in a way that is not ignored. With -q it prints nothing; otherwise it writes the text report, or with -j the JSON document, to the file of the last -o or to standard output. Exactly the attributes that an --ignore list or an --ignore-... option names are ignored; the order and repetition of options make no difference; options about what is shown do not change the status; and without them the text is empty exactly if the status is 0.", "quantifier": "all command lines of well-formed options around two files, all contents of the files, all sets of files that cannot be written", "why_tests_cant": "It relates all combinations and orders of the options for arbitrary class files to what is printed.", "anchors": ["javatools/classdiff.py:main", "javatools/classdiff.py:cli", "javatools/classdiff.py:cli_classes_diff", "javatools/classdiff.py:add_classdiff_optgroup", "javatools/classdiff.py:_opt_cb_ignore", "javatools/report.py:quick_report", "javatools/report.py:add_general_report_optgroup"]}
{"id": "C141", "title": "jardiff and distdiff write the report and return the status that the options ask for", "statement": "jardiff with two archives, and distdiff with two directories, and no --report end with the exception that reading or comparing raises, or else with the exit status of the comparison under the attributes and the patterns (manifest keys, entries, file names, in their order) that the options name, and with the text report or JSON document as asked for, written to the file of the last -o or to standard output. --shallow only compares files by size and time.", "quantifier": "all command lines of well-formed options around two files, all contents of the archives and directories", "why_tests_cant": "It covers all combinations of flags, lists and patterns for arbitrary archives and directory trees.", "anchors": ["javatools/jardiff.py:main", "javatools/jardiff.py:cli", "javatools/jardiff.py:cli_jars_diff", "javatools/jardiff.py:add_jardiff_optgroup", "javatools/distdiff.py:main", "javatools/distdiff.py:cli", "javatools/distdiff.py:cli_dist_diff", "javatools/classdiff.py:_opt_cb_ignore", "javatools/report.py:quick_report"]}
{"id": "C142", "title": "classdiff --report writes one report in each format and otherwise behaves as without", "statement": "classdiff with two class files and --report ends with the exception that reading or comparing raises, and then has written nothing; or with the exception that writing a report raises, and then has written the reports in the formats before that one. Otherwise it has written, in the directory of the last --report-dir or the current one, a file JavaClassReport with the right extension for each format that a --report list names, each once, with the text report, the JSON document or the page of the comparison; and unless -j is given it prints and returns exactly what it does without --report. A list of commas alone asks for no reports.", "quantifier": "all command lines of well-formed options around two files, all contents of the files, all sets of files that cannot be written, all outcomes of the page templates", "why_tests_cant": "It covers all combinations of formats, directories, other options and write failures for arbitrary class files.", "anchors": ["javatools/classdiff.py:main", "javatools/classdiff.py:cli_classes_diff", "javatools/classdiff.py:JavaClassReport.check", "javatools/report.py:Reporter.run", "javatools/report.py:ReportFormat.run", "javatools/report.py:_opt_cb_report"]}
{"id": "C143", "title": "jardiff --report writes a report for each changed class and one for the archives", "statement": "jardiff with two archives and --report (where --ignore names no option for patterns) ends with the exception that reading, comparing or writing raises, or it has written for each class whose content differs, and for no other entry, in a directory named after the entry, the reports in each format of the comparison of the two classes, with the text that classdiff prints for them; and after those the reports of the archives in each format. What it prints is the comparison of the archives without the lines about the insides of classes, and its exit status is the one without --report. When a class cannot be compared or reported, the reports of the classes before it have been written and stay.", "quantifier": "all command lines of well-formed options around two files, all archives, all sets of files that cannot be written, all outcomes of the page templates", "why_tests_cant": "It is about all archives with any number of changed classes, and about all write failures.", "anchors": ["javatools/jardiff.py:main", "javatools/jardiff.py:cli_jars_diff", "javatools/jardiff.py:JarReport.check", "javatools/jardiff.py:JarContentsReport.collect_impl", "javatools/jardiff.py:JarContentsReport.check_impl", "javatools/jardiff.py:JarClassReport.collect_impl", "javatools/report.py:Reporter.run", "javatools/report.py:Reporter.subreporter"]}
{"id": "C144", "title": "distdiff --report writes a report for each changed JAR and class and one for the distributions", "statement": "distdiff with two directories and --report (where --ignore names no option for patterns), with any number of worker processes, ends with the exception that comparing or writing raises, or it has written, in a directory named after the file, the reports of jardiff for each JAR that the comparison of the directories finds to differ and those of classdiff for each such class, each file once and no other file, and after those the reports of the distributions in each format. What it prints is the comparison of the distributions without the lines about the insides of JARs and classes, and its exit status is the one without --report.", "quantifier": "all command lines of well-formed options around two directories, all directory trees and contents of files, all numbers of processes and schedules, all sets of files that cannot be written, all outcomes of the page templates", "why_tests_cant": "It is about all trees with any number of changed JARs and classes, about all interleavings of worker processes and about all write failures.", "anchors": ["javatools/distdiff.py:main", "javatools/distdiff.py:cli_dist_diff", "javatools/distdiff.py:DistReport.check", "javatools/distdiff.py:DistReport.collect_impl", "javatools/distdiff.py:DistReport.check_impl", "javatools/distdiff.py:DistReport.mp_check_impl", "javatools/distdiff.py:DistJarReport.collect_impl", "javatools/distdiff.py:DistClassReport.collect_impl", "javatools/report.py:Reporter.setup"]}
{"id": "C145", "title": "The number of worker processes does not matter to distdiff", "statement": "distdiff has the same outcome whatever number of processes is given with --processes, or is the number of processors: the same files written, the same output and the same exit status or exception; in particular it ends for one number of processes if it ends for another.", "quantifier": "all command lines, all numbers, all directory trees, all schedules of the worker processes, all sets of files that cannot be written", "why_tests_cant": "It compares all schedules of any number of processes, including those where a worker fails at any moment.", "anchors": ["javatools/distdiff.py:main", "javatools/distdiff.py:cli_dist_diff", "javatools/distdiff.py:add_distdiff_optgroup", "javatools/distdiff.py:DistReport.check_impl", "javatools/distdiff.py:DistReport.mp_check_impl", "javatools/distdiff.py:_mp_run_check"]}
{"id": "C146", "title": "A checked change keeps its answers", "statement": "Once a change has been checked (even if the check raised), every question to it or to one of its descendants (is it a change, is it ignored under given options, its description, label, entry, number of children) has the same answer however often and in whatever order the change was examined or checked again before, and checking it again returns or raises the same. Examining it before the check influences neither the check nor the answers after it. The objects with their caches of children behave as the trees without caches for which the other properties of changes are stated.", "quantifier": "all change objects of any shape, all sequences of questions at any depth and of further checks, all outcomes of comparing and of collecting children", "why_tests_cant": "The answers are computed from caches that every question may fill; it is about all histories of calls on all trees.", "anchors": ["javatools/change.py:SuperChange.collect", "javatools/change.py:SuperChange.check_impl", "javatools/change.py:SuperChange.is_ignored", "javatools/change.py:GenericChange.check"]}
{"id": "C147", "title": "Collecting the children of a change afresh", "statement": "When a checked change collects its children afresh (force) and is checked again, the check has the same outcome as the first one and all answers of the change and its descendants are the same. Collecting afresh alone does not alter any answer about the change itself.", "quantifier": "all change objects that had not collected their children before the first check, and all sequences of questions and checks in between", "why_tests_cant": "It is about all trees and histories of calls.", "anchors": ["javatools/change.py:SuperChange.collect", "javatools/change.py:SuperChange.is_ignored"]}
{"id": "C148", "title": "A change whose children were squashed can still be examined and checked", "statement": "After the children of a checked change were squashed under some options, however often it is examined or checked again, checking it raises nothing and the change has the same verdict, description, label, entry, number of children and, under those options, is ignored exactly when it was before; and the same holds for each child (for the description, if it was not empty).", "quantifier": "all change objects, options and sequences of questions at any depth and of further checks", "why_tests_cant": "It is about all trees and histories of calls.", "anchors": ["javatools/change.py:SuperChange.squash_children", "javatools/change.py:squash", "javatools/change.py:SquashedChange", "javatools/change.py:SuperChange.check_impl"]}
{"id": "C149", "title": "The text of the source debug extension", "statement": "get_source_debug_extension returns the text stored in the SourceDebugExtension attribute, or None when there is none.", "quantifier": "all classes, all texts", "why_tests_cant": "It is about all byte strings and their encodings.", "anchors": ["javatools/__init__.py:JavaClassInfo.get_source_debug_extension"]}
{"id": "C150", "title": "Answers that objects keep do not depend on what was asked before", "statement": "For a class, member or code object unpacked once, every accessor (annotations of all four kinds, line numbers, relative line numbers, line of an offset, instructions, instructions by line, provided and required symbols, names, attributes) gives after any sequence of calls, including calls that raised, exactly the answer it gives on a fresh object.", "quantifier": "all classes, members and code objects, all histories of calls of any length", "why_tests_cant": "It is about all histories of calls.", "anchors": ["javatools/__init__.py:JavaClassInfo._get_annotations", "javatools/__init__.py:JavaMemberInfo._get_annotations", "javatools/__init__.py:JavaCodeInfo.get_linenumbertable", "javatools/__init__.py:JavaCodeInfo.disassemble", "javatools/__init__.py:JavaCodeInfo.iter_code_by_lines"]}
{"id": "C151", "title": "The constants of a pool are enumerated completely and in order", "statement": "constants() yields, in order of their indices, each used entry of the pool with its index, tag and dereferenced value, and skips unused slots; it raises exactly when some entry cannot be dereferenced, with that entry's exception, after yielding everything before the first such entry. On a pool whose references have the right kinds it never raises.", "quantifier": "all constant pools", "why_tests_cant": "It is about pools of any size and shape, including cyclic and ill-typed ones.", "anchors": ["javatools/__init__.py:JavaConstantPool.constants", "javatools/__init__.py:JavaConstantPool.get_const"]}
{"id": "C152", "title": "A class object can be unpacked again", "statement": "An object that held a class and was asked about it, and is then unpacked from the bytes of another class, answers every question as a fresh object unpacked from those bytes does.", "quantifier": "all pairs of class files and all histories of calls in between", "why_tests_cant": "It is about all pairs of files and histories.", "anchors": ["javatools/__init__.py:JavaClassInfo.unpack", "javatools/__init__.py:JavaAttributes.unpack"]}
{"id": "C153", "title": "The HTML reports list every child once under its heading", "statement": "In the HTML report on a JAR or a distribution the children are grouped under headings, a squashed child under the heading of the change it stands for. Headings do not repeat and none is empty; those the template names come first, in its order. Under a heading the children are in increasing order of their entries. If no two children have the same heading and entry, every child is shown exactly once.", "quantifier": "all lists of children", "why_tests_cant": "The grouping is over lists of any length with any mix of squashed and other children.", "anchors": ["javatools/cheetah/jardiff_JarReport.tmpl", "javatools/cheetah/distdiff_DistReport.tmpl", "javatools/change.py:squash"]}
{"id": "C154", "title": "The cells of the table of code make up full columns", "statement": "Reading the table of a method's code by the rules of HTML for rowspan and colspan, every row has all its columns with no gap or overlap, and shows the instructions of both sides at each relative line in order: relative line, then line, offset, name and operands of the original and of the modified code. Unchanged code is shown with one side. Every method whose code can be split into lines gets such a table.", "quantifier": "all pairs of method codes with their line tables", "why_tests_cant": "The spans depend on the numbers of instructions of both sides at every line.", "anchors": ["javatools/cheetah/classdiff_MethodCodeChange.tmpl", "javatools/classdiff.py:merge_code"]}
{"id": "C155", "title": "The HTML report shows the text of every annotation", "statement": "Where annotations differ, the table of the report has a row for each index, which shows the annotation of either side by its text (`pretty_annotation`) and marks the row changed unless both are equal; where they do not differ, the table shows the text of each.", "quantifier": "all pairs of lists of annotations", "why_tests_cant": "Annotations nest without bound.", "anchors": ["javatools/cheetah/classdiff_AnnotationsChange.tmpl", "javatools/__init__.py:JavaAnnotation.pretty_annotation"]}
{"id": "C156", "title": "The HTML report shows the value of every constant", "statement": "Where constant pools differ, the table of the report shows index, type and escaped value of each merged constant of either side, the right cells being empty exactly where both sides have the same type and value; where they do not differ, it shows those of each constant of the pool.", "quantifier": "all pairs of constant pools", "why_tests_cant": "Pools and values are unbounded.", "anchors": ["javatools/cheetah/classdiff_ClassConstantPoolChange.tmpl", "javatools/classdiff.py:pretty_merge_constants"]}
{"id": "C157", "title": "Texts of a class cannot add markup to the HTML report", "statement": "The tags of the HTML report on a class are the same whatever the names, types, signatures, annotations and values in the class are: they are those of the report with all texts empty. Likewise for the name of an entry in the report on an archive or a distribution, and for the link to its report.", "quantifier": "all data of a report on a class, all entries", "why_tests_cant": "The texts are arbitrary strings, in pages of any size.", "anchors": ["javatools/cheetah/classdiff_ClassInfoChange.tmpl", "javatools/cheetah/classdiff_FieldChange.tmpl", "javatools/cheetah/classdiff_MethodChange.tmpl", "javatools/cheetah/classdiff_AnnotationsChange.tmpl", "javatools/cheetah/change_SquashedChange.tmpl"]}
{"id": "C158", "title": "The HTML report on a class is well-formed", "statement": "In the HTML report on a class every element is closed, in the order in which they nest.", "quantifier": "all data of a report on a class", "why_tests_cant": "The page is made from templates for any number of members, rows and instructions.", "anchors": ["javatools/cheetah/classdiff_MethodAdded.tmpl", "javatools/cheetah/classdiff_FieldChange.tmpl", "javatools/cheetah/classdiff_MethodChange.tmpl", "javatools/cheetah/classdiff_ClassConstantPoolChange.tmpl"]}
{"id": "C159", "title": "jarutil create packs the paths its command line names", "statement": "On the command line of `jarutil c`, the first word that is not an option names the archive and all other words are the paths that are packed, in order, wherever the options stand. Behind `--` every word is one of these words. Without any word there is an error message.", "quantifier": "all command lines of well-formed options, words and unknown options, with and without `--`, and all file systems", "why_tests_cant": "Options and words can be interleaved in any way, and options can be spelled in many ways.", "anchors": ["javatools/jarutil.py cli_create_jar", "javatools/jarutil.py create_jar"]}
{"id": "C160", "title": "jarutil create sets the main class", "statement": "The manifest of an archive made by `jarutil c` has the attribute Main-Class with the value that is given with `--main-class`, and does not have it if none is given.", "quantifier": "all command lines that create an archive", "why_tests_cant": "The claim is about the effect of an option in combination with all others.", "anchors": ["javatools/jarutil.py cli_create_jar"]}
{"id": "C161", "title": "jarutil sign does what its options say in any order", "statement": "`jarutil s` takes exactly four words (archive, certificate, key, alias) in this order, wherever the options stand and whether or not `--` is in front of some of them. It signs with the last digest that is given, or SHA-256; embeds all certificates given with `-c` in their order; and writes to the last output file that is given, or to the archive. With any other number of words, or an unknown option, there is an error message and nothing is written.", "quantifier": "all command lines of well-formed options, words and unknown options, all archives and keys", "why_tests_cant": "Options and words can be interleaved in any way and repeated.", "anchors": ["javatools/jarutil.py cli_sign_jar"]}
{"id": "C162", "title": "manifest create does what its options say in any order", "statement": "`manifest create` takes exactly one word, the content, wherever the options stand. It is recursive if `-r` is given, ignores the patterns given with `-i`, uses the last digests given with `-d`, and writes to the last file given with `-m`.", "quantifier": "all command lines of well-formed options, words and unknown options", "why_tests_cant": "Options and words can be interleaved in any way, and one option takes any number of words.", "anchors": ["javatools/manifest.py cli_create"]}
{"id": "C163", "title": "Archives with a readable manifest can be signed", "statement": "If an archive has a manifest that can be parsed, the digest is supported and the key can be used, `sign` succeeds.", "quantifier": "all archives, manifests, keys, aliases and supported digests", "why_tests_cant": "Whether the new manifest and the signature file can be written depends on every attribute of the old manifest and on every entry name.", "anchors": ["javatools/jarutil.py sign", "javatools/manifest.py Manifest.add_jar_entries", "javatools/manifest.py SignatureManifest.digest_manifest", "javatools/manifest.py write_key_val"]}
{"id": "C164", "title": "create, sign and verify work together", "statement": "An archive that `jarutil c` makes of existing paths, and that `jarutil s` signs with a usable key and supported digest, is accepted by `jarutil v` with the certificate of that key (exit status 0), wherever the options stand on the command lines and whether the archive is signed in place or written to another file.", "quantifier": "all file trees, command lines of well-formed options and words, aliases, keys with their certificates, and digests", "why_tests_cant": "It is about all file trees and names, and about the composition of three programs.", "anchors": ["javatools/jarutil.py cli_create_jar", "javatools/jarutil.py cli_sign_jar", "javatools/jarutil.py cli_verify_jar_signature"]}
{"id": "C165", "title": "The build lists the files it makes", "statement": "When the build of a distribution succeeds, get_template_outputs (without byte code) returns a list of the files that the compiled templates are in: each of them exists then, one per template of each package at the place that the package and the template name, and the build has changed no other file.", "quantifier": "all distributions, package names, directory listings, templates and states of the files", "why_tests_cant": "The files are found by listing directories, and two pieces of code have to agree on them for any package and any name; that no other file is changed is about all files.", "anchors": ["javatools/cheetah/setuptools.py find_package_templates", "javatools/cheetah/setuptools.py build_template", "javatools/cheetah/setuptools.py get_template_outputs"]}
{"id": "C166", "title": "A successful build leaves every template compiled", "statement": "After a build that succeeds, the file for each template is what the template, as it is now, compiles to under the configuration as it is now.", "quantifier": "all packages, templates, compilers, configurations and states of the files with any modification times", "why_tests_cant": "It depends on the files and times that any number of earlier builds, failed ones among them, have left.", "anchors": ["javatools/cheetah/setuptools.py build_template", "javatools/cheetah/setuptools.py build_package_templates"]}
{"id": "C167", "title": "Every compiled template is found at run time", "statement": "get_templates gives the template of every file that the build compiled in the package, in the order of the file names, and nothing else.", "quantifier": "all directories and templates", "why_tests_cant": "It is about all names and all sets of files.", "anchors": ["javatools/cheetah/__init__.py _iter_templates", "javatools/cheetah/__init__.py get_templates", "javatools/cheetah/setuptools.py build_template"]}
{"id": "C168", "title": "The HTML page of a report on an archive or a distribution is well-formed XML", "statement": "The page that the HTML report writes for two JARs or two distributions declares itself XHTML 1.0 Strict; read as XML, every element is closed in the order in which elements nest and no tag has an attribute twice, whatever changes, style sheets, scripts and breadcrumbs are shown.", "quantifier": "for every list of changes (with children to any depth) whose classes are those of the package, every frame of the page", "why_tests_cant": "The page is put together from nested templates for any number and depth of changes; a test can only render a few pages.", "anchors": ["javatools/cheetah/report.tmpl", "javatools/cheetah/jardiff_JarContentsReport.tmpl", "javatools/cheetah/distdiff_DistReport.tmpl", "javatools/cheetah/change_Change.tmpl", "javatools/cheetah/change_SquashedChange.tmpl", "javatools/cheetah/manifest_ManifestChange.tmpl"]}
{"id": "C169", "title": "Names cannot add elements or attributes to the page of an archive or a distribution", "statement": "Every tag of the page is of one of the elements, and has only the attributes, that the templates contain, whatever the names of the entries and the labels of the changes are.", "quantifier": "for every list of changes (with children to any depth), every name of an entry and every label", "why_tests_cant": "Names of entries are arbitrary strings chosen by whoever made the archive; a test tries some of them.", "anchors": ["javatools/cheetah/report.tmpl", "javatools/cheetah/change_SquashedChange.tmpl", "javatools/cheetah/jardiff_JarContentChange.tmpl", "javatools/cheetah/distdiff_DistContentChange.tmpl"]}
{"id": "C170", "title": "The HTML page of a JAR comparison shows every entry of either archive exactly once, under the right heading", "statement": "When the HTML report on two JARs is made, the headings of its page and the names shown under them are: for every entry that only one archive has and every file that both have, its name once, under the heading that the kind of the entry (manifest, signature, class, other) and what happened to it (added, removed, changed, unchanged) call for; under each heading the names are in order, and the headings come in a fixed order, each at most once and none without entries.", "quantifier": "for every pair of readable JARs with any entries and contents, all options, and every page frame (style sheets, scripts, breadcrumbs)", "why_tests_cant": "The page depends on all names and contents of two archives and on a grouping by class, squashing and a dictionary keyed by names; tests compare a few archives, whereas a lost or doubled entry may need a particular combination.", "anchors": ["javatools/jardiff.py:JarReport", "javatools/jardiff.py:JarContentsReport", "javatools/cheetah/jardiff_JarContentsReport.tmpl", "javatools/cheetah/report.tmpl", "javatools/cheetah/change_Change.tmpl"]}
{"id": "C171", "title": "The HTML page of a distribution comparison shows every file of either distribution exactly once, under the right heading", "statement": "When the HTML report on two distributions is made, the headings of its page and the paths shown under them are: for every file of either distribution, its path once, under the heading that the kind of the file (JAR, class, text, manifest, other) and what happened to it (added, removed, changed or not) call for; under each heading the paths are in order, and the headings come in a fixed order, each at most once and none without files.", "quantifier": "for every pair of directory trees of any depth with any names and contents, shallow or deep, all options, and every page frame", "why_tests_cant": "The page depends on all paths and contents of two trees, on how changes are squashed and grouped, and on what the templates do with any name; tests compare a few trees.", "anchors": ["javatools/distdiff.py:DistReport", "javatools/distdiff.py:DistChange", "javatools/cheetah/distdiff_DistReport.tmpl", "javatools/cheetah/change_SquashedChange.tmpl", "javatools/cheetah/report.tmpl"]}
{"id": "C172", "title": "The HTML page of a class comparison names every field and method of either class in exactly one heading", "statement": "When the HTML report on two classes is made, reading its headings back gives, for every field and method of either class, exactly one heading with its name (for methods also the types of arguments and result, as in Java), in a block that says whether the member was added, removed or kept, and no other headings of members.", "quantifier": "for every pair of classes with any number of members with Java names and types, any code, all options, where names of classes and texts of annotations have no <", "why_tests_cant": "The page is put together from any number of members, in the order of a dictionary of identifiers, by a template per kind of change; tests compare a few classes.", "anchors": ["javatools/classdiff.py:ClassFieldsChange", "javatools/classdiff.py:ClassMethodsChange", "javatools/classdiff.py:JavaClassReport", "javatools/cheetah/classdiff_FieldChange.tmpl", "javatools/cheetah/classdiff_MethodChange.tmpl", "javatools/cheetah/classdiff_MethodAdded.tmpl", "javatools/cheetah/classdiff_MethodRemoved.tmpl"]}
{"id": "C173", "title": "The exit status of a class comparison is what the marks on its HTML page say", "statement": "When the HTML report on two classes is made, the comparison exits with status 1 if the page has a block of a change that is marked as changed and not as ignored, at any depth, and with status 0 if it has none.", "quantifier": "for every pair of classes with any number of members with Java names and types, any code, all ignore options, where names of classes and texts of annotations have no <", "why_tests_cant": "The marks are computed by every template on its own from is_change and is_ignored of one node of the tree, the status from the root alone; a test sees a few classes under a few options.", "anchors": ["javatools/classdiff.py:cli_classes_diff", "javatools/classdiff.py:JavaClassReport", "javatools/change.py:SuperChange.is_ignored", "javatools/cheetah/change_Change.tmpl"]}
{"id": "C174", "title": "The exit status of a JAR comparison is what the marks on its HTML page say", "statement": "When the HTML report on two JARs is made, the comparison exits with status 1 if the page has a block of a change that is marked as changed and not as ignored, at any depth, and with status 0 if it has none.", "quantifier": "for every pair of archives with any entries and contents, all ignore options and patterns", "why_tests_cant": "The marks of a block are made from one node of the tree of changes, the status from the root; whether they agree depends on which options ignore which nodes, over all archives, kinds of entries and patterns.", "anchors": ["javatools/jardiff.py:cli_jars_diff", "javatools/jardiff.py:JarReport", "javatools/change.py:SuperChange.is_ignored", "javatools/manifest.py:ManifestChange.is_ignored", "javatools/cheetah/change_Change.tmpl", "javatools/cheetah/change_SquashedChange.tmpl"]}
{"id": "C175", "title": "The exit status of a distribution comparison is what the marks on its HTML page say", "statement": "When the HTML report on two distributions is made, the comparison exits with status 1 if the page has a block of a change that is marked as changed and not as ignored, at any depth, and with status 0 if it has none.", "quantifier": "for every pair of directory trees with any files, deep or shallow, all ignore options and patterns", "why_tests_cant": "The marks of a block are made from one node of the tree of changes, the status from the root; whether they agree depends on which options ignore which nodes, over all trees, kinds of files and patterns.", "anchors": ["javatools/distdiff.py:cli_dist_diff", "javatools/distdiff.py:DistReport", "javatools/distdiff.py:DistTextChange.is_ignored", "javatools/change.py:SuperChange.is_ignored", "javatools/cheetah/change_Change.tmpl", "javatools/cheetah/change_SquashedChange.tmpl"]}
{"id": "C176", "title": "The JSON report of a JAR comparison has one object for every entry", "statement": "With the options to show ignored and unchanged changes, the JSON report on two JARs has under its contents exactly one object for every entry of either JAR, of the class that what happened to the entry (added, removed, different, same) and its kind call for, with its name and the flags for additions and removals. Without them it has no entry twice and only entries that were added, removed or differ and that no ignore option covers; every added or removed entry, every differing entry of no special kind, every differing signature block and every differing class in which the class comparison finds a change that is not ignored is in it unless covered.", "quantifier": "for every pair of readable archives, every upper-casing and set order, all ignore options and patterns", "why_tests_cant": "The objects come from the comparison of arbitrary archives through check, simplify and the options; that none is lost, doubled or of the wrong class is a statement on all archives and options.", "anchors": ["javatools/jardiff.py:JarContentsChange", "javatools/jardiff.py:JarChange", "javatools/change.py:SuperChange.simplify", "javatools/report.py:JSONReportFormat", "javatools/ziputils.py:compare_zips"]}
{"id": "C177", "title": "The JSON report of a distribution comparison has one object for every file", "statement": "With the options to show ignored and unchanged changes, the JSON report on two distributions has exactly one object for every file of either, of the class that what happened to it and its kind call for, with its path and the flags for additions and removals. Without them every file that is not the same in both and that no pattern of --ignore-filenames names is in it.", "quantifier": "for every pair of directory trees with any files, deep or shallow, all ignore options and patterns", "why_tests_cant": "The objects come from the comparison of arbitrary directory trees through check, simplify and the options; that none is lost, doubled or of the wrong class is a statement on all trees and options.", "anchors": ["javatools/distdiff.py:DistChange.collect_impl", "javatools/distdiff.py:DistContentChange", "javatools/distdiff.py:DistTextChange", "javatools/change.py:SuperChange.simplify", "javatools/report.py:JSONReportFormat", "javatools/dirutils.py:compare"]}
{"id": "C178", "title": "The tables of the HTML page of a class comparison show the properties of the classes", "statement": "The HTML page of a class comparison has a table for the class, one for every field that both classes have and one for every method of either. Read from the characters of the page, its rows are the properties of the class, field or method in order, each under its label: with the text of the left and then of the right version if the two differ, with the one text if they do not (some properties only if they are there, such as interfaces, generic signatures, constant values, exceptions). A method of one class has the properties of that version.", "quantifier": "for every pair of classes with Java members whose unescaped texts have no <, all options", "why_tests_cant": "Each row depends on a lookup of a change by name, on its check, on the accessors of two classes, fields or methods and on the templates; that no row ever shows the wrong version or the wrong property is a statement on all classes.", "anchors": ["javatools/cheetah/classdiff_ClassInfoChange.tmpl", "javatools/cheetah/classdiff_FieldChange.tmpl", "javatools/cheetah/classdiff_MethodChange.tmpl", "javatools/cheetah/classdiff_MethodAdded.tmpl", "javatools/cheetah/classdiff_MethodRemoved.tmpl", "javatools/change.py:collect_by_typename", "javatools/classdiff.py:ClassInfoChange", "javatools/classdiff.py:FieldChange", "javatools/classdiff.py:MethodChange"]}
{"id": "C179", "title": "The table of constants on the HTML page of a class comparison", "statement": "The HTML page of a class comparison has one table of constants. If the constant pools of the classes are equal, it lists the type and value of every constant, in order. Otherwise it has one row for every index, in order, with the type and value of the constant that the left class has there and, unless type and value are the same, of the one of the right class; where a class has no constant, the cells are empty.", "quantifier": "for every pair of classes with Java members whose unescaped texts have no <, all options", "why_tests_cant": "The rows depend on a merge of two pools of any sizes with unused slots, on the texts of every kind of constant and on the comparison of types and values; defects show only for certain sizes and values.", "anchors": ["javatools/cheetah/classdiff_ClassConstantPoolChange.tmpl", "javatools/classdiff.py:pretty_merge_constants", "javatools/classdiff.py:ClassConstantPoolChange", "javatools/__init__.py:JavaConstantPool.pretty_constants"]}
{"id": "C180", "title": "The tables of annotations on the HTML page of a class comparison", "statement": "The HTML page of a class comparison has two tables of annotations (visible, invisible) for the class, then two for every field that both classes have and two for every method that both have, and no others. If the annotations of the two versions are equal, a table lists their texts in order; otherwise it has one row for every position, with the text of the annotation that the left version has there and that of the right version, and an empty cell where there is none.", "quantifier": "for every pair of classes with Java members whose unescaped texts have no <, all options", "why_tests_cant": "Which rows there are depends on lists of annotations of any length on the class and on any number of members; the defect shows only for annotations without elements in lists that differ.", "anchors": ["javatools/cheetah/classdiff_AnnotationsChange.tmpl", "javatools/classdiff.py:AnnotationsChange", "javatools/classdiff.py:ClassAnnotationsChange", "javatools/classdiff.py:FieldAnnotationsChange", "javatools/classdiff.py:MethodAnnotationsChange"]}
{"id": "C181", "title": "The tables of code on the HTML page of a class comparison", "statement": "The HTML page of a class comparison has at most one table of code for each method that both classes have, and no others. If the comparison of the codes finds a change or their bytes are not the same, the table has nine titled columns, filled without gaps or overlaps, that show for each relative line, in increasing order, the instructions of both codes with offset, name and operands, beside the relative line and the line of each side. Otherwise it has five, with the instructions of the one code in order; a method without code on both sides has none.", "quantifier": "for every pair of classes with Java members whose unescaped texts have no <, all options", "why_tests_cant": "The columns depend on row and column spans written for any number of lines and instructions on either side, in any number of methods; a wrong span shifts all cells of the rows below.", "anchors": ["javatools/cheetah/classdiff_MethodCodeChange.tmpl", "javatools/cheetah/classdiff_MethodChange.tmpl", "javatools/classdiff.py:merge_code", "javatools/classdiff.py:MethodCodeChange", "javatools/__init__.py:JavaCodeInfo.iter_code_by_lines"]}
{"id": "C182", "title": "Dictionaries that describe fields and methods", "statement": "The dictionary that cli_simplify_field makes of a field has its name, its Java type, the words for its flags, its generic signature and its constant if it has them, and says that it is deprecated if it has a Deprecated attribute; under all other keys it has what the given dictionary had. The same holds of cli_simplify_method, with the types of the arguments in order in place of the constant.", "quantifier": "for every field and method as in a class file, every constant pool, every given dictionary", "why_tests_cant": "Which keys there are depends on which of the attributes a member has and on what they contain; a key left out or overwritten shows only for some combination of attributes and earlier contents.", "anchors": ["javatools/classinfo.py:cli_simplify_field", "javatools/classinfo.py:cli_simplify_method"]}
