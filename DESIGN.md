# Formal model of python-javatools in Lean 4

The code under study is `/repo` (obriencj/python-javatools, Python 2.7 / 3.7-3.11).
We model the Python 3 behaviour. Nothing in `/repo` is executed; the tie between
model and code is the line citation on each definition.

## Layout

* `lean/Verif/Model/*`  - models of the code, one file per area; every definition cites file and lines,
  the header of each file lists its simplifications and the CPython facts it relies on.
* `lean/Verif/Spec/*`   - independent specifications (JVM encodings, assembler, typing of pools, lines of a text, ...). They never call model code.
* `lean/Verif/Proofs/*` - helper lemmas.
* `lean/Verif/Props/*`  - the property theorems `Cnn_...` with non-vacuity `example`s beside them.
* `properties.jsonl`    - the properties.
* `MANIFEST.json`       - property -> status -> theorem names.
* `seeded/LOG.jsonl`    - record of deliberately wrong models tried against the theorems.

## Modelling conventions

* Python `bytes` = `List UInt8`; Python `str` = `List Char` (Unicode scalar values); unbounded `int` = `Int`/`Nat`.
* An exception is a value of the inductive type `PyErr`; a function that may raise returns `Except PyErr a` (`Res a`).
* An object mutated in place becomes a value returned by the function. A lazy generator is the list of what it yields, with the exception that ends it, if any.
* Unpackers: a decoding routine is an interaction tree `Prog a` (`ret`, `fail`, `read n k`), run by two
  interpreters that mirror `BufferUnpacker` and `StreamUnpacker`.
* Recursion that Python bounds by its recursion limit takes a `fuel` argument standing for that limit; a loop that can diverge takes fuel and gives the error `diverges` when it is used up.
* The order in which Python iterates over a set is a parameter (any function that lists the elements once each).
* Digests, signatures, `str.upper` outside ASCII and zlib/zip internals are parameters; collision-freeness is never assumed,
  theorems conclude "... or here is a collision".
* Directory trees are finite trees of directories and regular files; the world of a command is a function from paths to what is there.
* Worker processes are a transition system; theorems hold for every schedule.
* `os.linesep` is "\n" (POSIX). Streams are ordinary files (a `read(n)` returns fewer than n bytes only at the end).

A property that is false of the code is kept in full as `def Cnn_full : Prop`; `Cnn_full_fails` refutes it
with a concrete witness, a further theorem says exactly what the code does, and a theorem with suffix
`_partial` proves the claim under the weakest hypothesis we found.

## Trusted base

* The Lean 4.33.0 kernel, and the axioms `propext`, `Classical.choice`, `Quot.sound` (each theorem uses a subset; no other axiom, no `sorry`, no `native_decide`/`bv_decide`).
* Our reading of the Python code (line citations) and of the CPython library functions listed in each model file's header.
* Not modelled: the parsing of command lines by `optparse`/`argparse` except where a property names an option (for the six tools to inspect and compare it is, Model/ArgParse.lean, and for `jarutil` and `manifest`, Model/KnownArgs.lean), Cheetah HTML reports, M2Crypto,
  the zip container format, the operating system's file semantics beyond an abstract tree.

## Defects found

Each is the subject of a theorem (in brackets).

Class files
* Supplementary characters of Utf8 constants are dropped [C11]; a repeated attribute name overwrites the earlier one [C12].
* `is_deprecated`, `is_synthetic` never see the attribute, because its content is empty [C13]; the annotation default is read from the wrong offset [C19].
* `get_method_bridges` never matches a list of types [C16]; annotations with NaN are not equal to themselves [C18].
* No display for Dynamic constants [C20]; `pretty_deref_const` raises for MethodType, Module, Package and MethodHandle [C83].
* `unpack_class(magic=...)` refuses bytes and str [C81]; undocumented exceptions escape `unpack_class` [C82]; `str()` of an exception handler always raises [C84].
* A descriptor whose class name contains `)` is misread [C23].

Opcodes and line tables
* bipush is read unsigned [C27, C30]; multianewarray lacks the constant flag [C29, C40, C42].
* Line lookup stops at the first later entry of an unsorted table [C31]; code without a table is one group of line 1 [C32]; a line visited twice loses a group [C33]; differing pool sizes list an index twice [C34].

classdiff
* Members of the same name, or NaN constants, make a class differ from itself [C39]; +0.0/-0.0, int/float and String/Class of the same text are not distinguished [C42].
* The platform options and `ignore_added` do nothing; `--ignore lines|version|platform` sets other attributes than the single options [C43].

classinfo
* `--json` raises AttributeError for every class with a member to show [C100]; major and minor version are exchanged [C101]; annotations are all numbered 0 [C105] and printed for methods even without `--verbose` [C98]; "Exceptions:" is printed for methods without exceptions [C108]; dynamic constants raise [C102]; a class without keywords is shown with a blank in front [C104].

Manifests
* Empty values cannot be stored; U+0085, U+2028 and others cut values; a character split at a fold is lost [C45]; blank text raises StopIteration [C47].
* `rstrip("-Digest...")` strips characters, not the suffix [C48]; ſ counts as S in the names of signature files [C53].
* `strict=False` has no effect [C93]; `--ignore-manifest-key` is case-sensitive against its help text [C70].
* `manifest create`: names of files in a directory are never relative paths [C87]; `-r` iterates over characters [C88]; a second `-i` raises [C89]; output to stdout always raises [C90]; what is created need not verify [C86].
* Section names with a colon cannot be queried [C92].

JARs
* Entries hidden by a later one of the same name are not verified [C49]; unsorted manifests are signed with a digest that does not verify [C50]; a section for an absent entry lets it be added later [C51]; re-signing with another key keeps the old signature file [C52].
* `jarutil verify` shows the usage, because the command is matched with "view" [C94].
* Reports and JSON of unchanged archives raise, because the generator runs after the archives are closed [C56]; exploded archives are read as text [C55]; an entry with an empty name raises IndexError [C58]; `--zip` of an empty archive divides by zero [C58].

Distributions
* Two common subdirectories raise TypeError; clashes of files and directories are not reported; files of the same size and time count as equal [C59]; `copydir` of deep trees raises [C60].
* A worker that raises, or a negative number of workers, makes the report hang [C62]: `distdiff --report` with a changed class that cannot be read never ends, while with `--processes=0` it raises [C145].
* After `collect(force=True)` a changed composite says it is ignored, under any options, until it is checked again [C147].
* `get_source_debug_extension` returns Python's display of the bytes, `b'...'`, not the text [C149].
* Unpacking into a class object that was used before keeps attributes of the old class the new one lacks, and answers given earlier (annotations, provided and required symbols) [C152].
* In the HTML report, an annotation without elements is blank in the table of changed annotations: the annotation is a dict, and an empty dict is false in `(la and la.pretty_annotation()) or ""` [C155].
* In the HTML report, a constant whose value is 0 is blank in the table of changed constants, because of `str(lv or "")` [C156].
* The HTML report puts names of classes, superclasses, interfaces, exceptions, types and annotations into the page without escaping them, and names of entries into links: a class can be named so that the report on it contains any tag [C157].
* The HTML report is not well-formed with an added method (`</div` without `>`), with a changed field or method (the cells of name and type are not closed), or with a changed constant pool in which one constant is the same (no `</tr>`) [C158].
* A differing plain file is reported as unchanged; shallow mode reports no content changes [C63]; CRLF against LF is not reported [C64]; `--ignore-filenames` sees "./name" for files at the top [C77].
* The accessors of DistInfo raise for archives [C66], those of JarInfo for exploded directories with a class [C65].

Reports
* A format added between `setup` and `run` is not written [C111].
* The entry names of a JAR are used as paths: `../X.class` or `/X.class` is written outside the report directory [C112]; `X.class` and `./X.class` share a report, and an entry below `JarReport.html/` needs a directory where the report is [C113].
* Links are neither quoted nor percent-encoded: `a#b.class` links to `a` [C115, C117].
* Every HTML page claims to be XHTML but is not well-formed: the script tag for jQuery has the attribute `type` twice, and nothing in the package sets the option that leaves it out [C168]; the name of a changed class or JAR is put into a link unquoted and can add attributes, elements and headings [C169–C171].
* The HTML page on two classes does not say which fields were added or removed: those changes have no template of their own, and the page shows `Field added` without the name [C172].
* The page of a comparison of two classes is well-formed only if the new class has no methods at all and the classes have no field in common [C158].
* Below an entry or file that the options ignore, the parts of it are still marked as changed and not as ignored: `jardiff --ignore-manifest` shows a red block in the HTML report and exits with status 0 [C174]; likewise `distdiff --ignore-trailing-whitespace` [C175].
* If a template without a change class is found, the first HTML page raises and later ones are made with an incomplete set of templates [C131].
* The JSON report raises `TypeError` when an `ldc` of a method type or method handle differs, and when a body cannot be disassembled behind the first difference [C133]; differing operands that are not constants (`bipush 1` against `bipush 2`) are reported as a code constants change whose data is empty [C132].

jarinfo and distinfo
* "Manifest not present." is never printed: a missing manifest raises [C120]; `--zip` of an archive without data divides by zero, as text and as JSON [C123].
* `jarinfo --json` drops `--manifest` and `--jar-classes`, and writes several documents for several files; distinfo accepts the options of jarinfo and drops them [C124].

Archives
* A directory opened as an archive reads any path: `..`, absolute paths and links lead to files that are not listed and lie outside it [C126].
* `is_zipstream` raises for bytes and str on Python 3, for streams without `seek`, and for archives in several parts [C127].

Command lines
* `classdiff a -q b` exits with status 2: the two files have to be next to each other; so does `classinfo A.class -l B.class` [C134].
* distinfo takes the options of jarinfo and classinfo and ignores all but two of them [C139].
* `default_classdiff_options`, `default_jardiff_options` and `default_distdiff_options` always exit with status 2, because they parse an empty command line [C135]. (Behind that, the first two unpack the result as a pair and all call a method that `Namespace` does not have.)
* `jarutil c a.jar b -- c` tries to pack a file named `--` [C159]; `--main-class` is accepted and ignored [C160]; `manifest create -i PATTERN CONTENT` exits with status 2, because the content is taken for a pattern [C162].
* An archive with an empty attribute in its manifest (`Class-Path: `) cannot be signed: `write_key_val` raises a TypeError for empty values [C163]; an archive with a file name that has a line break can be made and signed, but not verified [C164].
* `--ignore jar-entry` (likewise `manifest-key` and `filenames`) stores True where a list of patterns belongs: a later `--ignore-jar-entry X` raises AttributeError, and the comparison of an entry TypeError [C141].

Building
* A distribution without packages can be built but `get_outputs` raises a TypeError for it [C165].
* A template that does not compile makes the build fail, but leaves an empty module that is newer than the template: the next build succeeds with the empty module. Nor does the build notice a changed configuration or a template that was put back to an older version [C166].
* A template with a dot in its name is compiled but never found [C167].

## Per property

`full` marks the theorem refuting the statement as given (only where it is false); `partial` marks theorems that cover part of it.

**C01 Bytes and streams unpack identically** (proved; code: javatools/pack.py:BufferUnpacker, javatools/pack.py:StreamUnpacker, javatools/pack.py:unpack; proofs: Props/Pack)

  Theorems: `C01_bytes_stream_agree`, `C01_bytes_stream_agree_at`.
  Every decoding routine (tree of reads) gives the same result on bytes and on a stream.

**C02 Truncated input is always detected and trailing input is never read** (proved; code: javatools/pack.py:BufferUnpacker.unpack_struct, javatools/pack.py:BufferUnpacker.read, javatools/__init__.py:unpack_class; proofs: Props/Pack)

  Theorems: `C02_trailing_ignored`, `C02_truncation_detected`, `C02_no_wrong_value`.
  Trailing data ignored, every shorter prefix refused with UnpackException; class-file instance is C06_truncated_class_refused.

**C03 A failed read on a bytes unpacker consumes nothing; a closed unpacker yields nothing** (proved; code: javatools/pack.py:BufferUnpacker, javatools/pack.py:StreamUnpacker.close; proofs: Props/Pack)

  Theorems: `C03_failed_reads_consume_nothing`, `C03_failed_call_erasable`, `C03_closed_yields_nothing`.
  Histories of reads with caught failures on the bytes unpacker; closed unpackers yield nothing.

**C04 Fixed-width integers decode exactly** (proved; code: javatools/pack.py:Unpacker.unpack_array, javatools/pack.py:BufferUnpacker.unpack, javatools/pack.py:StreamUnpacker.unpack; proofs: Props/Pack)

  Theorems: `C04_decode_encode`, `C04_encode_decode`, `C04_decode_injective`, `C04_reads_are_structs`.
  All struct formats used, both directions, with ranges.

**C05 The struct cache never changes a result** (proved; code: javatools/pack.py:compile_struct; proofs: Props/Pack)

  Theorems: `C05_cache_transparent`, `C05_formats_not_confused`.
  Any history of compile_struct calls with any caches.

**C06 unpack_class inverts the class-file format** (proved; code: javatools/__init__.py:JavaClassInfo.unpack, javatools/__init__.py:JavaConstantPool.unpack, javatools/__init__.py:JavaMemberInfo.unpack, javatools/__init__.py:JavaAttributes.unpack, javatools/__init__.py:unpack_class; proofs: Props/ClassFile)

  Theorems: `C06_unpack_inverts_encoding`, `C06_parts`, `C06_truncated_class_refused`, `C06_encoding_determines_object`.
  Encoding of any structure decodes to the object it describes; Utf8 text as in C11 and repeated attribute names as in C12.

**C07 Constant pool indices match the JVM numbering** (proved; code: javatools/__init__.py:JavaConstantPool.unpack, javatools/__init__.py:_unpack_const_item; proofs: Props/ClassFile)

  Theorems: `C07_pool_indices`, `C07_pool_slots_any_data`.
  Encoded pools of any length and, separately, arbitrary accepted data.

**C08 Magic number checking** (proved; code: javatools/__init__.py:is_class, javatools/__init__.py:is_class_file, javatools/__init__.py:unpack_class; proofs: Props/ClassFile)

  Theorems: `C08_is_class_iff`, `C08_unpack_class_rejects`, `C08_unpacked_is_class`.
  All byte strings, bytes and streams.

**C09 Dereferencing a well-typed pool terminates with the denoted value** (proved; code: javatools/__init__.py:JavaConstantPool.deref_const; proofs: Props/ClassFile)

  Theorems: `C09_deref_denotes`, `C09_denotation_unique`.
  All well-typed pools; four nested calls suffice whatever the size.

**C10 Dereferencing a bad index or a cyclic pool raises** (proved; code: javatools/__init__.py:JavaConstantPool.deref_const; proofs: Props/ClassFile)

  Theorems: `C10_bad_index`, `C10_cycle_never_yields`, `C10_cycle_recursion_error`, `C10_recursion_error_means_cycle`.
  Bad indices, empty slots, cycles, and the converse (RecursionError only with a cycle).

**C11 Utf8 constants decode the modified UTF-8 of any string** (partial; code: javatools/__init__.py:_unpack_const_item; proofs: Props/ClassFile, Props/Exact2)

  Theorems: `C11_full_fails`, `C11_decodes_non_surrogates`, `C11_utf8_bmp_partial`, `C11_bmp_injective_partial`, `C11_exact`.
  Full statement C11_full is refuted (supplementary characters are dropped); exact behaviour for all strings and the full claim for BMP strings are proved. C11_exact: the texts that survive are exactly those without supplementary characters.

**C12 Attribute lookup** (partial; code: javatools/__init__.py:JavaAttributes.unpack, javatools/__init__.py:JavaClassInfo.get_attribute, javatools/__init__.py:JavaMemberInfo.get_attribute; proofs: Props/ClassFile, Props/Exact)

  Theorems: `C12_get_attribute`, `C12_full_fails`, `C12_all_retrievable_partial`, `C12_exact`.
  Full statement C12_full is refuted (repeated names overwrite); exact behaviour for all tables and the claim for distinct names are proved. C12_exact says for exactly which attribute tables the full statement holds.

**C13 Deprecated and Synthetic attributes are recognised** (partial; code: javatools/__init__.py:JavaClassInfo.is_deprecated, javatools/__init__.py:JavaMemberInfo.is_deprecated, javatools/__init__.py:JavaMemberInfo.is_synthetic; proofs: Props/ClassFile, Props/Exact2)

  Theorems: `C13_full_fails`, `C13_conforming_never_reported`, `C13_absent_not_reported_partial`, `C13_exact`.
  Full statement C13_full is refuted: the mandated zero-length attribute is falsy. Missing: reporting a present attribute. C13_exact says for exactly which attribute tables the answer is right.

**C14 Platform lookup is total, unambiguous and monotone over known versions** (proved; code: javatools/__init__.py:platform_from_version, javatools/__init__.py:_platforms; proofs: Props/Member)

  Theorems: `C14_total_on_known`, `C14_value`, `C14_rows_disjoint`, `C14_monotone`.
  All natural major/minor numbers.

**C15 Access flag predicates and keywords reflect exactly the flag bits** (proved; code: javatools/__init__.py:JavaMemberInfo._pretty_access_flags_gen, javatools/__init__.py:JavaClassInfo._pretty_access_flags_gen; proofs: Props/Member)

  Theorems: `C15_class_bits`, `C15_member_bits`, `C15_keywords_distinct`, `C15_member_keywords`, `C15_class_keywords`.
  All flag words; keyword theorem for members assumes no Synthetic attribute, which also counts as the synthetic flag.

**C16 Member lookup** (partial; code: javatools/__init__.py:JavaClassInfo.get_field_by_name, javatools/__init__.py:JavaClassInfo.get_methods_by_name, javatools/__init__.py:JavaClassInfo.get_method, javatools/__init__.py:JavaClassInfo.get_method_bridges; proofs: Props/Exact2, Props/Member)

  Theorems: `C16_exact`, `C16_field_by_name`, `C16_methods_by_name`, `C16_get_method`, `C16_bridges_full_fails`, `C16_get_method_bridges_partial`, `C16_bridges_list_empty`.
  Names and descriptors are assumed to dereference. The claim for get_method_bridges is refuted for list arguments and proved for tuples. C16_exact says for exactly which lists the answer is right.

**C17 Annotation attributes decode exactly** (proved; code: javatools/__init__.py:JavaAnnotation.unpack, javatools/__init__.py:_unpack_annotation_val, javatools/__init__.py:JavaMemberInfo._get_annotations; proofs: Props/Annotation, Props/AnnotationExact)

  Theorems: `C17_element_value`, `C17_annotations`, `C17_parameter_annotations`, `C17_accepts_exactly`, `C17_annotations_exactly`.
  Element names distinct and Utf8; nesting within the recursion limit (depth argument).

**C18 Annotation equality is semantic** (partial; code: javatools/__init__.py:JavaAnnotation.__eq__, javatools/__init__.py:_annotation_val_eq; proofs: Props/Annotation, Props/Exact2)

  Theorems: `C18_equal_iff_same_meaning`, `C18_renumbering`, `C18_symmetric`, `C18_reflexive_full_fails`, `C18_reflexive_partial`, `C18_float_equality`, `C18_exact`.
  Full reflexivity is refuted (NaN constants). Equality iff same meaning, symmetry and pool independence hold for all annotations whose constants dereference; equality of constants is Python ==. C18_exact: an annotation equals itself exactly if there is no NaN in it.

**C19 AnnotationDefault is decoded as an element value** (partial; code: javatools/__init__.py:JavaMemberInfo.get_annotationdefault; proofs: Props/ClassFile)

  Theorems: `C19_full_fails`, `C19_exact`, `C19_annotationdefault_partial`.
  Full statement C19_full is refuted: the tag byte is read as part of the index; exact behaviour proved.

**C20 Every constant that can be unpacked can be displayed** (partial; code: javatools/__init__.py:JavaConstantPool.pretty_const, javatools/__init__.py:JavaConstantPool.pretty_constants, javatools/__init__.py:_pretty_const_type_val, javatools/__init__.py:_unpack_const_item; proofs: Props/Exact2, Props/Member)

  Theorems: `C20_exact`, `C20_listing`, `C20_full_fails`, `C20_pretty_const_partial`, `C20_pretty_constants_partial`.
  Full statement C20_full is refuted: tag 17 (Dynamic) unpacks but raises on display. Proved for every other tag. C20_exact and C20_listing say exactly which constants and pools can be shown.

**C21 Descriptor splitting inverts concatenation** (proved; code: javatools/__init__.py:_typeseq, javatools/__init__.py:_typeseq_iter, javatools/__init__.py:_next_argsig; proofs: Props/Descriptor)

  Theorems: `C21_typeseq_inverts_concat`, `C21_concat_injective`.
  All descriptor sequences, any array depth.

**C22 Descriptor splitting terminates and loses nothing on any text** (proved; code: javatools/__init__.py:_typeseq_iter, javatools/__init__.py:_next_argsig; proofs: Props/Descriptor)

  Theorems: `C22_terminates`, `C22_loses_nothing`, `C22_loses_nothing_without_dot`, `C22_exceptions`.
  All strings; the set of possible exceptions is also given.

**C23 Method descriptor accessors** (proved; code: javatools/__init__.py:JavaMemberInfo.get_arg_type_descriptors, javatools/__init__.py:JavaMemberInfo.get_type_descriptor, javatools/__init__.py:JavaMemberInfo.pretty_arg_types, javatools/__init__.py:_pretty_type; proofs: Props/Descriptor)

  Theorems: `C23_method_accessors`, `C23_field_accessors`, `C23_paren_in_class_name_breaks`.
  Class names without ')' or ';' (valid Java names); C23_paren_in_class_name_breaks shows the hypothesis is needed.

**C24 Member identifiers distinguish members** (proved; code: javatools/__init__.py:JavaMemberInfo.get_identifier; proofs: Props/Descriptor)

  Theorems: `C24_method_identifiers`, `C24_field_identifiers`.
  Stated as iff, for Java member and class names.

**C25 Pretty type names are the Java names** (proved; code: javatools/__init__.py:_pretty_type, javatools/__init__.py:_pretty_class; proofs: Props/Descriptor)

  Theorems: `C25_pretty_is_java`, `C25_pretty_void_and_args`, `C25_pretty_injective`.
  Injectivity for Java class names that are not primitive keywords.

**C26 Provided and required symbols of a class** (proved; code: javatools/__init__.py:JavaClassInfo.get_provides, javatools/__init__.py:JavaClassInfo.get_requires, javatools/__init__.py:JavaClassInfo._get_requires; proofs: Props/Member)

  Theorems: `C26_history_independent`, `C26_requires_not_provided`, `C26_public_subset_private`, `C26_ignored_exactly`, `C26_requires_complete`, `C26_symbol_of_method`, `C26_provides_content`.
  glob (fnmatch) is a parameter. History independence over all call sequences.

**C27 Disassembly inverts assembly** (partial; code: javatools/opcodes.py:disassemble, javatools/opcodes.py:_unpack_lookupswitch, javatools/opcodes.py:_unpack_tableswitch, javatools/opcodes.py:_unpack_wide; proofs: Props/Exact, Props/Opcodes)

  Theorems: `C27_exact`, `C27_full_fails`, `C27_disassemble_assemble`, `C27_disassemble_assemble_partial`.
  The full statement is refuted (negative bipush). The exact report is proved for every valid sequence; the full statement for sequences without negative bipush. C27_exact: the full statement holds for a program if and only if no bipush has a negative operand.

**C28 Disassembly covers the code exactly, or raises** (proved; code: javatools/opcodes.py:disassemble, javatools/opcodes.py:_unpack; proofs: Props/Opcodes)

  Theorems: `C28_covers_or_raises`, `C28_success_tiles`, `C28_terminates`, `C28_offsets`.
   Proved in full.

**C29 The opcode table is a bijection with correct constant-pool flags** (partial; code: javatools/opcodes.py:__op, javatools/opcodes.py:get_opcode_by_name, javatools/opcodes.py:get_opname_by_code, javatools/opcodes.py:has_const_arg; proofs: Props/Exact2, Props/OpTable)

  Theorems: `C29_exact`, `C29_registers`, `C29_opcodes`, `C29_unknown`, `C29_code_of_name`, `C29_name_of_code`, `C29_names_distinct`, `C29_ignores_case`, `C29_const_multianewarray`, `C29_const_full_fails`, `C29_const_partial`, `C29_const_variable`, `C29_const_first`, `C29_mnemonics`.
  Constant flag refuted for multianewarray and proved for all other opcodes; everything else proved, str.lower assumed only on ASCII. C29_exact: the flag is right for exactly the opcodes other than multianewarray.

**C30 Immediate operands have the JVM's signedness** (partial; code: javatools/opcodes.py:OP_bipush, javatools/opcodes.py:OP_sipush, javatools/opcodes.py:OP_iinc, javatools/opcodes.py:disassemble; proofs: Props/Exact, Props/Opcodes)

  Theorems: `C30_exact`, `C30_full_fails`, `C30_jvm_values_partial`, `C30_bipush_unsigned`, `C30_value_unique`.
  Refuted for bipush (reported unsigned); proved for every other opcode on all byte strings. C30_exact: the full statement holds for an instruction unless it is a bipush with an operand over 127.

**C31 Line lookup** (partial; code: javatools/__init__.py:JavaCodeInfo.get_line_for_offset; proofs: Props/Lines)

  Theorems: `C31_full_fails`, `C31_line_lookup_partial`, `C31_line_unique`, `C31_exact`.
  Fails for tables not sorted by offset (the loop stops at the first later entry): C31_full_fails; C31_exact says what any table gives, C31_line_lookup_partial covers every sorted table.

**C32 Grouping code by lines loses nothing** (partial; code: javatools/__init__.py:JavaCodeInfo.iter_code_by_lines, javatools/__init__.py:JavaCodeInfo.get_relativelinenumbertable; proofs: Props/Exact, Props/Lines)

  Theorems: `C32_exact`, `C32_full_fails`, `C32_grouping_partial`, `C32_no_table`, `C32_iter_code_by_lines`, `C32_linenumbertable`, `C32_relative`.
  Fails for code without a LineNumberTable, yielded as one (possibly empty) group labelled line 1: C32_full_fails, C32_no_table. C32_grouping_partial covers every non-empty table. C32_exact: the full statement holds for a table if and only if it has an entry.

**C33 Merged code listings contain every instruction of both sides** (partial; code: javatools/classdiff.py:merge_code; proofs: Props/Lines)

  Theorems: `C33_full_fails`, `C33_exact`, `C33_merge_code_partial`, `C33_only_groups`.
  Fails when a line is visited twice: the dict keeps the last group (C33_full_fails, C33_exact). C33_merge_code_partial covers methods where no line recurs.

**C34 Merged constant listings contain every index exactly once** (partial; code: javatools/classdiff.py:pretty_merge_constants; proofs: Props/Lines)

  Theorems: `C34_full_fails`, `C34_exact`, `C34_merge_constants_partial`, `C34_all_indices_partial`.
  Fails when the pool sizes differ: the last common index is listed twice (C34_full_fails, C34_exact). The partial theorems cover equal sizes, and order and completeness for any sizes.

**C35 Change trees: changed, ignored and exit status agree with the leaves** (proved; code: javatools/change.py:SuperChange.check_impl, javatools/change.py:SuperChange.is_ignored, javatools/classdiff.py:cli_classes_diff; proofs: Props/Change)

  Theorems: `C35_changed_iff_leaf`, `C35_ignored_iff`, `C35_ignored_override`, `C35_exit_status`, `C35_exit_leaves`.
  Composites with an overridden is_ignored or a check that skips the children are covered by C35_ignored_override and by Differs; C35_exit_leaves is for trees of plain composites.

**C36 Squashing preserves the verdict** (proved; code: javatools/change.py:squash, javatools/change.py:SquashedChange, javatools/change.py:SuperChange.squash_children; proofs: Props/Change)

  Theorems: `C36_squash`, `C36_squash_default`, `C36_squash_twice`, `C36_squash_children`.
  Overridden descriptions are assumed non-empty, as every one in the project is.

**C37 Sorting changes by type is a stable grouping** (proved; code: javatools/change.py:iterate_by_type, javatools/change.py:collect_by_type, javatools/change.py:yield_sorted_by_type; proofs: Props/Change)

  Theorems: `C37_exact`, `C37_stable`, `C37_permutation`, `C37_order`, `C37_contiguous`.
   Proved in full.

**C38 Reports show exactly the relevant changes** (proved; code: javatools/report.py:_indent_change, javatools/change.py:SuperChange.simplify, javatools/report.py:_indent; proofs: Props/Change)

  Theorems: `C38_text_report`, `C38_indent_ascii`, `C38_json_report`.
  JSON: the rendered old/new data of a leaf are not modelled; the root is always reported.

**C39 A class compared with itself shows no change** (partial; code: javatools/classdiff.py:JavaClassChange, javatools/classdiff.py:ClassMembersChange.collect_impl, javatools/classdiff.py:MethodCodeChange; proofs: Props/ClassDiff, Props/ClassSelf)

  Theorems: `C39_self_partial`, `C39_readable_partial`, `C39_twoFields_status`, `C39_nan_status`, `C39_full_fails`, `C39_exact`.
  False as stated: two fields with the same name and different types, or a not-a-number constant, make a class differ from itself (C39_full_fails, C39_nan_status). Proved without bounds for pools without not-a-number and distinct member identifiers: the comparison raises or finds nothing; for readable classes it completes with status 0. C39_exact: for a readable class nothing is found if and only if the pool holds no not-a-number and no two fields and no two methods have the same identifier.

**C40 Renumbering the constant pool is only a pool change** (partial; code: javatools/classdiff.py:CodeConstantsChange.check_impl, javatools/classdiff.py:CodeBodyChange.check_impl, javatools/classdiff.py:ClassConstantPoolChange; proofs: Props/RenExact, Props/Renumber)

  Theorems: `C40_exact`, `C40_same_constants_partial`, `C40_renumbering_partial`, `C40_multianewarray_reported`, `C40_full_fails`, `C40_dynamic_raises`.
  Relation between two classes up to indices (ClassRel over parsed attribute encodings and instruction lists, not over model helpers). Full statement C40_full is false: multianewarray's operand is compared as a number (C40_full_fails, C40_multianewarray_reported) and a Dynamic constant makes the comparison raise (C40_dynamic_raises). Proved for all renumberings that keep multianewarray operands in place. C40_exact: for renumberings that leave multianewarray operands in place the exit status is 0 exactly when the pools are equal, or the pool is ignored and neither pool holds a Dynamic constant.

**C41 Added, removed and changed members are reported exactly** (proved; code: javatools/classdiff.py:ClassMembersChange.collect_impl; proofs: Props/ClassDiff)

  Theorems: `C41_exact`, `C41_members`, `C41_collected`.
  Exact list of reported members for distinct identifiers; the identifier functions are arbitrary, then instantiated to get_identifier by C41_collected.

**C42 Every change of a loaded constant is detected** (partial; code: javatools/classdiff.py:CodeConstantsChange.check_impl, javatools/__init__.py:JavaConstantPool.deref_const; proofs: Props/ClassConst)

  Theorems: `C42_values_differ`, `C42_leaf`, `C42_leaf_exact`, `C42_code_partial`, `C42_same_kind_partial`, `C42_class_status`, `C42_completes`, `C42_full_fails`, `C42_missed`.
  C42_full (every different typed constant is reported) is false: equal after dereferencing and == are +0.0/-0.0, an int and a float of the same value, a String and a Class of the same text, and multianewarray's index is compared as a number (C42_full_fails, C42_missed). Proved: C42_code_partial for constants whose values differ under ==, C42_same_kind_partial for constants of the same kind (bit patterns, denotations) other than zeros and method handles that differ only in the referenced kind; the leaf exactly (C42_leaf_exact), completion without exception (C42_completes), and that the class comparison then exits with 1 for every option setting (C42_class_status).

**C43 Ignore options suppress exactly their kind of change** (partial; code: javatools/classdiff.py:ClassVersionChange.is_ignored, javatools/classdiff.py:ClassPlatformChange.is_ignored, javatools/classdiff.py:_opt_cb_ignore, javatools/classdiff.py:add_classdiff_optgroup; proofs: Props/ClassIgnore)

  Theorems: `C43_exact`, `C43_options_partial`, `C43_other_options`, `C43_platform_witness`, `C43_full_fails`, `C43_added_witness`, `C43_parsed`, `C43_comma_partial`, `C43_comma_full_fails`, `C43_option_names`.
  C43_exact gives the exit status exactly: 1 iff a compared leaf differs whose kind the table 'actual' does not suppress, for all options and classes. The intended table is false (C43_full_fails): ClassPlatformChange.is_ignored tests ignore_version_up/down, so the platform options do nothing, and ignore_added is never read (C43_added_witness). C43_options_partial: the intended table holds when ignore_added is unset and the platform options equal the version options. Comma lists: C43_comma_full_fails (--ignore lines/version/platform do not set what --ignore-lines etc. set), C43_comma_partial for all other names with arbitrary white space; C43_parsed: an attribute is set iff some option sets it.

**C44 Manifest lines never exceed 72 bytes** (proved; code: javatools/manifest.py:write_key_val; proofs: Props/Manifest)

  Theorems: `C44_item`, `C44_refused`, `C44_section`, `C44_manifest`, `C44_written`.
  Lines are defined on the bytes (ShortLines: any piece between LFs, terminator included). C44_refused is exact; C44_written gives exactly the pairs that can be written (an empty value raises TypeError).

**C45 Manifests survive store and parse** (partial; code: javatools/manifest.py:Manifest.parse, javatools/manifest.py:Manifest.store, javatools/manifest.py:parse_sections, javatools/manifest.py:write_key_val; proofs: Props/ManifestRound, Props/RoundExact)

  Theorems: `C45_partial`, `C45_ascii_partial`, `C45_empty_value`, `C45_line_break`, `C45_broken_character`, `C45_full_fails`, `C45_exact`.
  C45_full is false (C45_full_fails): an empty value raises TypeError in store, U+0085/U+2028 and similar characters cut values (C45_line_break), a multi-byte character at a fold is lost (C45_broken_character). C45_partial: every manifest without these three; C45_ascii_partial: every legal manifest whose values are non-empty printable ASCII. Sections come back in the order of their serialised bytes. C45_exact says exactly which legal manifests survive: those whose values are not empty, have no line break and can be folded.

**C46 Manifest serialisation is injective** (proved; code: javatools/manifest.py:ManifestSection.store, javatools/manifest.py:write_key_val, javatools/manifest.py:SignatureManifest.verify_manifest_entry_checksums; proofs: Props/Manifest)

  Theorems: `C46_sections`, `C46_manifests`, `C46_digest`, `C46_digest_manifest`.
  For sections and manifests as produced by parsing, both line separators; digests are an arbitrary function and the conclusion is equality or an explicit collision.

**C47 Manifest parsing either succeeds or reports a malformed manifest** (partial; code: javatools/manifest.py:parse_sections, javatools/manifest.py:Manifest.parse, javatools/manifest.py:detect_linesep, javatools/manifest.py:ManifestSection.__setitem__; proofs: Props/Manifest)

  Theorems: `C47_exact`, `C47_partial`, `C47_full_fails`, `C47_linesep`.
  C47_full is false for empty or blank text (StopIteration, C47_full_fails); C47_exact characterises success and each exception for all byte strings, C47_partial is the claim for text with a non-blank line.

**C48 Digest attributes name their algorithms** (partial; code: javatools/manifest.py:ManifestSection.keys_with_suffix, javatools/manifest.py:Manifest.verify_jar_checksums; proofs: Props/ManifestDigest)

  Theorems: `C48_exact`, `C48_partial`, `C48_supported`, `C48_accepts`, `C48_full_fails`.
  C48_full is false: rstrip strips a character set, so Test-Digest is not tried as Test (C48_full_fails). C48_exact says what is tried; C48_supported: the supported algorithms are always tried; C48_partial: the claim for names not ending in a character of the suffix.

**C49 A verified JAR is vouched for by the signature** (partial; code: javatools/jarutil.py:verify, javatools/manifest.py:SignatureManifest.verify_manifest, javatools/manifest.py:Manifest.verify_jar_checksums; proofs: Props/JarVerify, Props/VerifyExact)

  Theorems: `C49_read`, `C49_partial`, `C49_full_fails`, `C49_exact`.
  C49_read: for every archive, with the content that reading by name gives; C49_partial: all entries, if no covered name occurs twice. Full fails: an entry hidden by a later one of the same name is not checked. C49_exact says exactly which archives verify, given that mapping to capitals twice is mapping once.

**C50 Signing then verifying succeeds** (partial; code: javatools/jarutil.py:sign, javatools/jarutil.py:verify, javatools/manifest.py:SignatureManifest.digest_manifest, javatools/manifest.py:Manifest.add_jar_entries; proofs: Props/JarSign, Props/SignVerify)

  Theorems: `C50_partial`, `C50_full_fails`, `C50_exact`, `C50_sorted_partial`.
  C50_partial covers free aliases without slash/NUL, names without line breaks, no characters broken at fold points, and kept sections with a digest of the algorithm. Full fails: unsorted manifest with directory sections (the whole-manifest digest is taken in dict order but written sorted). C50_exact: under the conditions on alias, names and folding of C50_partial, the signed archive is accepted if and only if the stored manifest has the digest of the sections in original order, or each kept section has a digest attribute of the chosen algorithm before any of an unsupported one; C50_sorted_partial: always, if the sections are in order already.

**C51 Tampering with a signed JAR is detected** (partial; code: javatools/jarutil.py:verify, javatools/jarutil.py:sign, javatools/manifest.py:SignatureManifest.verify_manifest, javatools/manifest.py:Manifest.verify_jar_checksums; proofs: Props/JarSign)

  Theorems: `C51_stale_partial`, `C51_partial`, `C51_full_fails`.
  Untampered: same content or a digest collision or a forged signature. C51_partial needs every covered manifest section of the original to belong to an entry, and recordable names. Full fails: a section for an absent entry lets that entry be added. C51_stale_partial: without the condition on the sections of the manifest, every entry is either unchanged or vouched for by a stale section of the original manifest; C51_partial is a corollary.

**C52 Signing an already signed JAR again replaces the signature** (partial; code: javatools/jarutil.py:sign, javatools/jarutil.py:verify; proofs: Props/JarSign)

  Theorems: `C52_old_signature`, `C52_full_fails`, `C52_partial`.
  Full fails (another key). C52_old_signature: exact behaviour, the old signature file is the one read. C52_partial: same key, certificate, digest and the name given.

**C53 Exactly the signature-related entries are exempt from verification** (partial; code: javatools/manifest.py:file_skips_verification, javatools/manifest.py:file_matches_sigblock, javatools/manifest.py:file_matches_sigfile, javatools/manifest.py:_in_sig_related_dir; proofs: Props/ManifestDigest, Props/VerifyExact)

  Theorems: `C53_partial`, `C53_location`, `C53_full_fails`, `C53_exact`.
  C53_full is false: 'META-INF/x.ſf' is exempt because upper() maps ſ to S (C53_full_fails). C53_partial: the claim for ASCII names; C53_location for all names. C53_exact says exactly which names need no verified section.

**C54 Choice of the signature file** (proved; code: javatools/jarutil.py:verify; proofs: Props/JarVerify)

  Theorems: `C54_alias`, `C54_no_sf`, `C54_not_chosen`, `C54_no_block`, `C54_used`, `C54_accepts`.
  Specification Chosen/BlockFor; all outcomes of verify described.

**C55 Archive comparison classifies every entry exactly once** (partial; code: javatools/ziputils.py:compare_zips, javatools/ziputils.py:_different, javatools/ziputils.py:_deep_different, javatools/ziputils.py:collect_compare_zips_into, javatools/ziputils.py:chunk_zip_entry; proofs: Props/Exact3, Props/Zip)

  Theorems: `C55_exact`, `C55_partial`, `C55_mixed`, `C55_binary`, `C55_exploded`, `C55_full_fails`.
  Proved for two archive files unless both hold an entry with the empty name. False in general: exploded archives are read as text, so a file equal to the entry of an archive file counts as changed (C55_mixed) and comparing a file that is not UTF-8 with itself raises UnicodeDecodeError (C55_binary). C55_exact: for two archive files the property holds if and only if not both have an entry with the empty name.

**C56 Comparing two archive files by name works** (partial; code: javatools/ziputils.py:compare, javatools/ziputils.py:open_zip; proofs: Props/Exact2, Props/Zip)

  Theorems: `C56_exact`, `C56_partial`, `C56_raises`, `C56_exploded`, `C56_full_fails`.
  False: compare() returns a generator that runs after the archives are closed. Proved when no common entry agrees in size and CRC; otherwise it always ends with ValueError (C56_raises), and with AttributeError for exploded archives (C56_exploded). C56_exact says for exactly which archive files the two ways to compare agree.

**C57 Chunked checksums do not depend on the chunk size** (proved; code: javatools/ziputils.py:file_crc32, javatools/manifest.py:digest_chunks, javatools/manifest.py:file_chunk, javatools/manifest.py:zipentry_chunk; proofs: Props/Zip)

  Theorems: `C57_chunks`, `C57_chunk_size`, `C57_crc`, `C57_zero`, `C57_digest`, `C57_file_digest`.
  For every chunk size except 0, where file_crc32 is always 0 (C57_zero). digest_chunks is proved for every algorithm whose update can be split.

**C58 Archive roll-up counts add up** (partial; code: javatools/ziputils.py:zip_entry_rollup, javatools/jarinfo.py:cli_jar_zip_info; proofs: Props/Exact, Props/Zip)

  Theorems: `C58_exact`, `C58_partial`, `C58_empty_name`, `C58_full_fails`, `C58_exploded`, `C58_zip_info`.
  Proved unless an entry has the empty name, which raises IndexError (C58_empty_name). cli_jar_zip_info divides by zero exactly when the uncompressed size is 0 (C58_zip_info). C58_exact: the full statement holds for an archive if and only if no entry has the empty name.

**C59 Directory comparison reports every file exactly once** (partial; code: javatools/dirutils.py:compare, javatools/dirutils.py:_gen_from_dircmp; proofs: Props/Dir, Props/DirExact)

  Theorems: `C59_sound`, `C59_subdirs`, `C59_partial`, `C59_clash`, `C59_shallow`, `C59_full_fails`, `C59_collect`, `C59_exact`.
  The events that are yielded are always right and come once each (C59_sound, files of the same size and time count as the same). Complete for trees without a file/directory clash and with at most one common subdirectory per directory; two or more end with TypeError (C59_subdirs), clashes are not reported (C59_clash), changed files of the same size and time are missed (C59_shallow). C59_exact says for exactly which trees the comparison is right.

**C60 copydir copies the whole tree** (partial; code: javatools/dirutils.py:copydir, javatools/dirutils.py:makedirsp; proofs: Props/DirCopy, Props/Exact)

  Theorems: `C60_partial`, `C60_deep`, `C60_full_fails`, `C60_exact`.
  Proved for destinations in which the directories with files two or more levels down exist already; otherwise copydir always raises (C60_deep). C60_exact: for a new destination the full statement holds if and only if no file is more than one directory down.

**C61 Glob lists** (proved; code: javatools/dirutils.py:fnmatches; proofs: Props/Glob)

  Theorems: `C61_fnmatch`, `C61_fnmatches`, `C61_monotone`, `C61_order`, `C61_star_suffix`.
  fnmatch.translate and the regular expression search are modelled; shell glob rules are specified as an inductive relation; POSIX (normcase is the identity)

**C62 Parallel distribution reports equal sequential ones** (partial; code: javatools/distdiff.py:DistReport.mp_check_impl, javatools/distdiff.py:_mp_run_check, javatools/distdiff.py:DistReport.check_impl; proofs: Props/DistMp, Props/Exact3)

  Theorems: `C62_outcome`, `C62_at_most_once`, `C62_progress`, `C62_finite`, `C62_ends_partial`, `C62_failed`, `C62_hangs`, `C62_negative`, `C62_full_fails`, `C62_exact`.
  The worker processes and queues are a transition system (Model/DistMp.lean). Proved for every schedule and number of workers: a parallel check that ends has the children and flag of the sequential check and ran each sub-report exactly once (C62_outcome); no sub-report is ever run twice; every run is finite; if the sequential check succeeds and there is at least one worker, the parallel check cannot get stuck and ends with the sequential outcome (C62_ends_partial). The full statement fails (C62_full_fails): a sub-report that raises makes the main process wait forever (C62_hangs), as does a negative --processes (C62_negative). C62_exact: for exactly which checks every schedule ends with the result of the sequential check.

**C63 distdiff reports every changed file** (partial; code: javatools/distdiff.py:DistContentChange, javatools/distdiff.py:DistChange.collect_impl, javatools/change.py:SuperChange.check_impl; proofs: Props/DistDiff, Props/DistExact)

  Theorems: `C63_other_lost`, `C63_class`, `C63_manifest`, `C63_jar`, `C63_full_fails`, `C63_shallow`, `C63_one_sided_partial`, `C63_text_partial`, `C63_jar_partial`, `C63_exact`.
  Trees, readers of JARs and classes and all kinds of files are modelled (Model/DistDiff.lean). Exact: a differing plain file is lost by check (C63_other_lost, so C63_full is false), in shallow mode nothing that differs is reported (C63_shallow); a file on one side only always is (C63_one_sided_partial), a differing text or JAR is reported exactly as its own comparison says (C63_text_partial, C63_jar_partial, C63_class, C63_manifest). C63_exact: a comparison that ends has status 1 exactly if some file that no pattern matches counts (CountsFile, by kind of file).

**C64 Whitespace-only text changes** (partial; code: javatools/distdiff.py:DistTextChange.check, javatools/distdiff.py:DistTextChange.is_ignored, javatools/distdiff.py:DistTextChange.collect_impl; proofs: Props/DistDiff, Props/Exact3)

  Theorems: `C64_partial`, `C64_full_fails`, `C64_exact`.
  Proved for files that are UTF-8 (C64_partial), for every content: with the option a differing text is ignored exactly if the files agree line by line up to trailing white space, blank lines at the end counting as such; without it every difference of the lines is reported. C64_full is false: files that differ in line endings only are never reported. C64_exact: for exactly the texts that do not differ in the ends of their lines alone.

**C65 JAR-level requires are external** (proved; code: javatools/jarinfo.py:JarInfo._collect_requires_provides, javatools/jarinfo.py:JarInfo.get_requires; proofs: Props/Info)

  Theorems: `C65_requires`, `C65_provides`, `C65_returns`, `C65_exploded`.
  JarInfo with its caches and close is modelled (Model/Info.lean); for every archive, history of calls and ignore list: the keys of get_requires are the symbols some class needs and none has, publicly or privately, and each value lists exactly the classes that need it, once each if names are not repeated; the same for get_provides with public symbols; both return exactly if every class can be read (C65_returns). From an exploded directory with a class both raise (C65_exploded).

**C66 Distribution-level requires are external** (partial; code: javatools/distinfo.py:DistInfo._collect_requires_provides; proofs: Props/Exact3, Props/Info)

  Theorems: `C66_exact`, `C66_requires_partial`, `C66_provides`, `C66_returns`, `C66_archive`, `C66_full_fails`.
  For distributions in a directory, any history of calls: keys and values are exact (C66_requires_partial, C66_provides, C66_returns). C66_full is false: for a distribution in an archive the entries are looked up below the archive instead of the temporary directory and both accessors raise (C66_archive). Private members of classes in JARs do not count as provided at this level, those of other classes do; this is how DistOffers is stated. C66_exact: it holds exactly when the distribution is a directory or has no JAR and no class file.

**C67 jardiff entry classification** (proved; code: javatools/jardiff.py:JarContentsChange; proofs: Props/JarDiff)

  Theorems: `C67_entry`, `C67_collected`, `C67_raises`, `C67_partition`, `C67_checked_simple`, `C67_checked_raw`, `C67_checked_class`, `C67_checked_manifest`.
  Class, entry and kind of every change object, for all names and events; partition for zip archives; after check: added and removed stay changes, same stay unchanged, plain files and signature blocks changed iff bytes differ, classes and manifests iff their comparison says so.

**C68 Manifest differences and ignored keys** (proved; code: javatools/manifest.py:ManifestChange.collect_impl, javatools/manifest.py:ManifestSectionChange.is_ignored, javatools/manifest.py:ManifestMainChange.is_ignored; proofs: Props/ManifestDiff)

  Theorems: `C68_report`, `C68_ignored`, `C68_signature`, `C68_parsed`, `C68_text`, `C68_reordered`.
  Manifests with lawful dictionaries (C68_parsed: every manifest that was read). The order of attributes counts as a difference (C68_reordered).

**C69 Manifest section bookkeeping** (proved; code: javatools/manifest.py:Manifest.create_section, javatools/manifest.py:ManifestSection.__setitem__, javatools/manifest.py:Manifest.clear; proofs: Props/ManifestOps)

  Theorems: `C69_section`, `C69_main`, `C69_names`, `C69_keys`, `C69_primary`, `C69_keep`.
  The history of operations is a list of MOp values; the expected content is computed from the log of assignments, independently of the model.

**C70 Ignored manifest keys are case-insensitive** (partial; code: javatools/jardiff.py:add_jardiff_optgroup, javatools/manifest.py:ManifestSectionChange.is_ignored, javatools/manifest.py:ManifestMainChange.is_ignored; proofs: Props/Exact, Props/ManifestDiff)

  Theorems: `C70_exact`, `C70_right`, `C70_full_fails`, `C70_partial`, `C70_spelling`.
  False: keys are compared exactly. Holds when differing attributes are spelled like the keys. C70_exact: exactly which changes are ignored; C70_right: exactly when this is the intended answer.

**C71 Reports do not change jardiff's verdict** (proved; code: javatools/jardiff.py:JarContentsReport.check_impl, javatools/jardiff.py:JarReport.check, javatools/change.py:squash; proofs: Props/JarDiff)

  Theorems: `C71_reports`.
  Equality of the two status functions, exceptions included.

**C72 Equal JARs are equal** (proved; code: javatools/jardiff.py:JarContentsChange, javatools/jardiff.py:cli_jars_diff; proofs: Props/JarDiff)

  Theorems: `C72_same`.
  Zip archives with correct sizes and check sums.

**C73 jardiff exit status** (proved; code: javatools/jardiff.py:cli_jars_diff, javatools/jardiff.py:JarContentChange.is_ignored, javatools/jardiff.py:JarSignatureFileChange.is_ignored; proofs: Props/JarDiff, Props/JarExact)

  Theorems: `C73_status`, `C73_one_sided`, `C73_content`, `C73_covered`, `C73_exact`.
  Zip archives with correct sizes and check sums; status given that no exception is raised. C73_exact: the status is 1 if and only if an entry counts that no option covers, with what counts said for each kind of entry.

**C74 Files of a distribution are compared by kind** (proved; code: javatools/distdiff.py:DistChange.collect_impl, javatools/distdiff.py:cli_dist_diff; proofs: Props/DistDiff)

  Theorems: `C74_entry`, `C74_collected`, `C74_raises`, `C74_files`, `C74_status`, `C74_checked_one_sided`.
  One object per event with its class (C74_entry, C74_collected), when the collection raises (C74_raises), which files there are (C74_files), the status (C74_status).

**C75 Reports do not change the verdict of distdiff** (proved; code: javatools/distdiff.py:DistReport.check_impl, javatools/distdiff.py:DistJarReport, javatools/change.py:squash; proofs: Props/DistDiff)

  Theorems: `C75_reports`, `C75_parallel`.
  distReportStatus = distDiffStatus as values, exceptions included (C75_reports); with workers for every schedule that ends, through C62_outcome (C75_parallel).

**C76 Equal distributions are equal** (partial; code: javatools/distdiff.py:DistChange.collect_impl, javatools/dirutils.py:compare; proofs: Props/DistDiff, Props/Exact2)

  Theorems: `C76_partial`, `C76_subdirs`, `C76_undecodable`, `C76_full_fails`, `C76_exact`.
  C76_partial: trees with the same files, at most one common subdirectory in each directory and text files that are UTF-8. C76_full is false: two common subdirectories raise TypeError (C76_subdirs) and identical texts that are not UTF-8 raise UnicodeDecodeError (C76_undecodable). C76_exact says for exactly which distributions with the same files the status is 0.

**C77 --ignore-filenames covers matching files** (partial; code: javatools/distdiff.py:DistContentChange.is_ignored, javatools/dirutils.py:fnmatches; proofs: Props/DistDiff, Props/DistExact)

  Theorems: `C77_name`, `C77_partial`, `C77_star`, `C77_full_fails`, `C77_exact`.
  False for changed files at the top of the distribution: their name is matched as ./name (C77_full_fails). Proved for all others (C77_partial), and for all if the pattern begins with a star (C77_star). C77_exact: a file that counts (C63_exact) is ignored if and only if a pattern matches the name under which it is reported.

**C78 Text and JSON reports of a JAR list the same symbols** (proved; code: javatools/jarinfo.py:cli_jar_requires, javatools/jarinfo.py:cli_jar_provides, javatools/jarinfo.py:cli_jarinfo_json; proofs: Props/Info)

  Theorems: `C78_printed`.
  printedSymbols is a permutation of the keys of the JSON map and a sublist of the sorted keys.

**C79 The class reader accepts exactly class files** (proved; code: javatools/__init__.py:unpack_class, javatools/__init__.py:JavaClassInfo.unpack, javatools/__init__.py:JavaConstantPool.unpack; proofs: Props/ClassExact)

  Theorems: `C79_accepts_exactly`, `C79_accepts_exactly_stream`, `C79_refused`.
  Both directions: success on data iff the data starts with the encoding of a raw class structure, for bytes and streams. Raw: Utf8 entries are bytes (their decoding is C11), references unchecked except attribute names, a trailing long may overhang the pool.

**C80 Standard attributes decode exactly** (proved; code: javatools/__init__.py:JavaMemberInfo.get_code, javatools/__init__.py:JavaCodeInfo.unpack, javatools/__init__.py:JavaCodeInfo.get_linenumbertable, javatools/__init__.py:JavaClassInfo.get_innerclasses, javatools/__init__.py:JavaClassInfo.get_enclosingmethod; proofs: Props/Accessors, Props/Attrs)

  Theorems: `C80_pretty_signature`, `C80_module`, `C80_code`, `C80_line_numbers`, `C80_local_variables`, `C80_inner_classes`, `C80_exceptions`, `C80_constant_value`, `C80_named`, `C80_enclosing_method`.
  Iff for code, line numbers, local variables, inner classes, exceptions, constant values, signatures/source files; enclosing methods for well-typed indices.

**C81 Unpacking a class whose magic was already read** (partial; code: javatools/__init__.py:unpack_class, javatools/__init__.py:JavaClassInfo.unpack; proofs: Props/Attrs, Props/Exact2)

  Theorems: `C81_full_fails`, `C81_bytes_and_str_refused`, `C81_tuple_partial`, `C81_method_accepts_all_forms`, `C81_exact`.
  False for bytes and str: unpack_class compares the argument with a tuple, so every class is refused (C81_bytes_and_str_refused). Tuples resume exactly (C81_tuple_partial); the method JavaClassInfo.unpack accepts all three forms. C81_exact.

**C82 Malformed class data raises only documented exceptions** (partial; code: javatools/__init__.py:unpack_class, javatools/__init__.py:_unpack_const_item, javatools/__init__.py:JavaConstantPool.deref_const; proofs: Props/Attrs)

  Theorems: `C82_exceptions`, `C82_full_fails`, `C82_truncated_partial`.
  False: UnknownConstantPoolTagException, IndexError and RecursionError escape (C82_full_fails). Proved: only those five kinds are ever raised (C82_exceptions); truncated class files raise UnpackException only.

**C83 Every constant has a text** (partial; code: javatools/__init__.py:JavaConstantPool.pretty_deref_const, javatools/__init__.py:_pretty_const_type_val; proofs: Props/Attrs, Props/Exact4)

  Theorems: `C83_pretty_deref_partial`, `C83_others`, `C83_full_fails`, `C83_exact`.
  False for MethodType (TypeError), Module/Package (AttributeError), MethodHandle (unknown tag): C83_others. All other kinds proved; class names in method descriptors free of ')' and ';' (see C21). C83_exact: in a pool with proper types, exactly the constants that are no method handle, method type, module or package have a text.

**C84 Exception handlers compare by meaning and print** (partial; code: javatools/__init__.py:JavaExceptionInfo; proofs: Props/Attrs)

  Theorems: `C84_equality_partial`, `C84_info_partial`, `C84_str_always_fails`, `C84_full_fails`.
  Equality and info() proved; str() always raises TypeError (C84_str_always_fails refutes the text part).

**C85 manifest create records an archive** (proved; code: javatools/manifest.py:cli_create, javatools/manifest.py:single_path_generator; proofs: Props/ManifestCli)

  Theorems: `C85_created`, `C85_raises`.
  Archives whose entries have names (an entry with the empty name raises IndexError).

**C86 A created manifest verifies its archive** (partial; code: javatools/manifest.py:cli_create, javatools/manifest.py:Manifest.verify_jar_checksums; proofs: Props/ManifestCli)

  Theorems: `C86_exact`, `C86_partial`, `C86_full_fails`.
  False: other files below META-INF are never recorded but are verified. Exact for ASCII names: the failures are the entries neither exempt nor recorded.

**C87 manifest create on a directory uses relative paths** (partial; code: javatools/manifest.py:directory_generator, javatools/manifest.py:single_path_generator; proofs: Props/ManifestCli)

  Theorems: `C87_exact_partial`, `C87_never`, `C87_full_fails`.
  False: the base name is cut instead of the path, so the recorded name is never the relative path (C87_never) and can collide; exact theorem.

**C88 manifest create -r records a directory** (partial; code: javatools/manifest.py:multi_path_generator, javatools/manifest.py:cli_create; proofs: Props/ManifestCli)

  Theorems: `C88_missing`, `C88_file`, `C88_partial`, `C88_full_fails`.
  False: the argument string is iterated by characters. Partial: names of one character.

**C89 --ignore can be given more than once** (partial; code: javatools/manifest.py:cli_create; proofs: Props/ManifestCli)

  Theorems: `C89_exact`, `C89_full_fails`, `C89_partial`.
  False: a second --ignore always raises TypeError.

**C90 manifest create writes the manifest** (partial; code: javatools/manifest.py:cli_create; proofs: Props/Exact2, Props/ManifestCli)

  Theorems: `C90_exact`, `C90_stdout`, `C90_full_fails`, `C90_partial`.
  False: standard output is a text stream and always refuses bytes. Partial: a named file. C90_exact.

**C91 manifest verify reports exactly the bad entries** (proved; code: javatools/manifest.py:cli_verify; proofs: Props/ManifestCli2)

  Theorems: `C91_exact`, `C91_usage`, `C91_no_manifest`.
  ASCII names (for others see C53); unknown digest names raise.

**C92 manifest query answers** (partial; code: javatools/manifest.py:cli_query; proofs: Props/Exact2, Props/ManifestCli2)

  Theorems: `C92_exact`, `C92_main`, `C92_partial`, `C92_colon`, `C92_full_fails`, `C92_lines`, `C92_usage`.
  False for section names with a colon; exact for the others. C92_exact says for exactly which sections the answer is right.

**C93 strict=False accepts entries without digests** (partial; code: javatools/manifest.py:Manifest.verify_jar_checksums; proofs: Props/Exact3, Props/ManifestCli2)

  Theorems: `C93_exact`, `C93_no_effect`, `C93_partial`, `C93_full_fails`.
  False: strict has no effect at all (C93_no_effect). C93_partial: no report if every entry that must match has a digest recorded. C93_exact: it holds exactly when a digest is recorded for every entry that has to match.

**C94 Commands by name or abbreviation** (partial; code: javatools/manifest.py:main, javatools/jarutil.py:main; proofs: Props/Exact2, Props/ManifestCli2)

  Theorems: `C94_exact`, `C94_manifest`, `C94_jarutil_partial`, `C94_full_fails`.
  manifest as stated; jarutil: false, verification is called view, so verify only shows the usage. C94_exact: of the abbreviations of verify only v is accepted.

**C95 jarutil create holds exactly the given files** (proved; code: javatools/jarutil.py:create_jar; proofs: Props/CreateJar)

  Theorems: `C95_exact`, `C95_missing`, `C95_manifest`.
  Paths without . and .. components, absolute paths excluded.

**C96 jarutil sign exit status** (proved; code: javatools/jarutil.py:cli_sign_jar; proofs: Props/ManifestCli2)

  Theorems: `C96_signed`, `C96_unsigned`, `C96_no_manifest`, `C96_key`.
  Signature scheme abstract.

**C97 jarutil verify exit status** (partial; code: javatools/jarutil.py:cli_verify_jar_signature; proofs: Props/Exact4, Props/VerifyCli)

  Theorems: `C97_exact`, `C97_status`, `C97_zero`, `C97_usage`, `C97_partial`, `C97_full_fails`.
  False: exceptions that are not VerificationErrors escape, e.g. MissingManifestError (C97_full_fails, C97_status). C97_zero (iff) and C97_usage are proved for all archives; C97_partial: archives with a readable manifest and readable signature files with known algorithms. C97_exact says for exactly which archives the command ends with a status.

**C98 classinfo terse listing** (partial; code: javatools/classinfo.py:cli_print_classinfo, javatools/classinfo.py:should_show, javatools/classinfo.py:print_field, javatools/classinfo.py:print_method; proofs: Props/ClassInfoCli, Props/Exact3)

  Theorems: `C98_visible`, `C98_partial`, `C98_header`, `C98_full_fails`, `C98_exact`.
  Model/ClassInfoCli mirrors classinfo.py branch by branch; output is text × optional exception. Visibility by bits of the access flags; the full text of the terse listing given by terseText. False in general: the annotations of a method are printed even in the terse listing (C98_full_fails); exact if no shown method has the attribute. C98_header: with --header the output is exactly the source line, the declaration and the header; no member is shown. C98_exact: the listing is terse exactly when every shown method has annotations that decode to none.

**C99 classinfo -c lists the instructions** (proved; code: javatools/classinfo.py:print_method, javatools/opcodes.py:disassemble; proofs: Props/CodeListing)

  Theorems: `C99_exact`, `C99_faithful`, `C99_injective`, `C99_numbers`.
  C99_exact composes C27 (disassembler inverts the assembler) and C29 (mnemonics) with the text of operands; C99_faithful and C99_injective: equal listings come from equal instructions, by unique readability of decimal numbers, tabs and brackets. C99_numbers: numbers are decimal with a sign (natText is Nat.toDigits 10).

**C100 classinfo --json** (partial; code: javatools/classinfo.py:cli_simplify_classinfo, javatools/classinfo.py:cli_simplify_fields, javatools/classinfo.py:cli_simplify_methods; proofs: Props/ClassInfoCli, Props/Exact2)

  Theorems: `C100_fails`, `C100_partial`, `C100_full_fails`, `C100_exact`.
  False: the options are passed where the member is expected, so any member that is to be shown raises AttributeError (C100_fails); the report is right if no member is shown (C100_partial). C100_exact says for exactly which classes there is a document.

**C101 classinfo shows the class version** (partial; code: javatools/classinfo.py:cli_print_classinfo; proofs: Props/ClassInfoCli)

  Theorems: `C101_exact`, `C101_partial`, `C101_full_fails`.
  False for every real class file: the two numbers are exchanged (C101_exact); right exactly if they are equal (C101_partial, an equivalence).

**C102 classinfo -p lists the constants** (partial; code: javatools/classinfo.py:cli_print_classinfo, javatools/__init__.py:_pretty_const_type_val; proofs: Props/ConstListing)

  Theorems: `C102_exact`, `C102_partial`, `C102_dynamic`, `C102_full_fails`, `C102_float`, `C102_float_special`.
  C102_exact gives the listing; a reader of repr escapes shows that strings can be read back; false for floating point numbers, which are rounded to six decimals (C102_full_fails); dynamic constants raise (C102_dynamic). C102_float: finite floats have six decimals, rounded to nearest even; C102_float_special: nan and infinities.

**C103 Declarations of members** (proved; code: javatools/__init__.py:JavaMemberInfo.pretty_descriptor; proofs: Props/Declaration)

  Theorems: `C103_method`, `C103_field`, `C103_method_injective`, `C103_field_injective`.
  C103_method and C103_field give the text; the injectivity theorems take it apart at the parenthesis, the blanks and the commas. Keywords are those of C15.

**C104 Declarations of classes** (partial; code: javatools/__init__.py:JavaClassInfo.pretty_descriptor; proofs: Props/Declaration)

  Theorems: `C104_exact`, `C104_partial`, `C104_full_fails`.
  C104_exact for any class; the claim fails for a class without keywords (leading blank) and for java.lang.Object ("extends" without a name).

**C105 classinfo numbers annotations** (partial; code: javatools/classinfo.py:print_field, javatools/classinfo.py:print_method, javatools/classinfo.py:cli_print_classinfo; proofs: Props/ClassInfoCli)

  Theorems: `C105_exact`, `C105_partial`, `C105_shown`, `C105_full_fails`.
  False: the index is never incremented (C105_exact); right exactly for at most one annotation (C105_partial, an equivalence). C105_shown: the visible annotations below a heading; nothing without any.

**C106 classinfo --class-provides and --class-requires** (proved; code: javatools/classinfo.py:cli_class_provides, javatools/classinfo.py:cli_class_requires; proofs: Props/ClassInfoCli)

  Theorems: `C106_provides`, `C106_requires`.
  Sortedness of sorted() is proved against the lexicographic order of lists; the set of symbols is that of get_provides / get_requires (C32-C36).

**C107 classinfo on several files** (proved; code: javatools/classinfo.py:cli, javatools/classinfo.py:cli_print_class; proofs: Props/ClassInfoCli)

  Theorems: `C107_all`, `C107_stops`, `C107_no_class`.
  Induction over the list of files.

**C108 classinfo --verbose lists exceptions** (partial; code: javatools/classinfo.py:print_method; proofs: Props/ClassInfoCli)

  Theorems: `C108_exact`, `C108_partial`, `C108_full_fails`.
  False: a generator is always true, so the heading is printed for every method (C108_exact); right exactly for methods that declare exceptions.

**C109 classinfo -l and -o** (proved; code: javatools/classinfo.py:print_method; proofs: Props/ClassInfoCli)

  Theorems: `C109_lines`, `C109_lines_injective`, `C109_locals`, `C109_method`, `C109_verbose`.
  Induction over the rows; injectivity by unique readability. C109_method and C109_verbose give the text of a method in the verbose listing in full: code, exceptions, line numbers and local variables.

**C110 --report selects the formats it names** (proved; code: javatools/report.py:_opt_cb_report, javatools/report.py:Reporter.add_formats_by_name; proofs: Props/Report)

  Theorems: `C110_formats`.
  Model/Report mirrors report.py; the parts of a comma-separated list are specified by what stands before and after them; proved for all lists of options.

**C111 A reporter writes each of its formats once** (partial; code: javatools/report.py:Reporter.setup, javatools/report.py:Reporter.run; proofs: Props/Exact4, Props/Report)

  Theorems: `C111_exact`, `C111_full_fails`, `C111_partial`, `C111_pending`.
  False: setup caches the formats, and run uses the cache (C111_full_fails, C111_pending). C111_partial: every add that follows a setup follows the run or clear that ends it; no other condition on the calls. C111_exact says for exactly which sequences of calls every format is written.

**C112 Reports stay in the report directory** (partial; code: javatools/report.py:Reporter.subreporter, javatools/report.py:ReportFormat.run, javatools/jardiff.py:JarContentsReport.collect_impl; proofs: Props/Report, Props/ReportExact)

  Theorems: `C112_where`, `C112_class`, `C112_full_fails`, `C112_partial`, `C112_dist`, `C112_exact`.
  Paths are specified by the place they lead to (Spec/Paths). False for entries with .. parts or a slash in front (zip slip; C112_full_fails with a JAR); C112_where and C112_class give the file for every entry; C112_partial and C112_dist: common entries that do not go up. C112_exact: the reports stay in the report directory, whatever it is, if and only if the reported entries are relative and no initial part of them leads out of it.

**C113 Reports do not overwrite each other** (partial; code: javatools/report.py:Reporter.subreporter, javatools/jardiff.py:JarContentsReport.collect_impl, javatools/distdiff.py:DistReport.collect_impl; proofs: Props/ApartExact, Props/Report)

  Theorems: `C113_exact`, `C113_full_fails`, `C113_directory`, `C113_partial`, `C113_dist`.
  False for entries that lead to the same place, or that have a part named like a report (C113_full_fails, C113_directory). C113_partial (JARs) and C113_dist (distributions): plain entries with different places. C113_exact: for entries that are relative and do not go up, the reports on the classes of a JAR and the JAR are apart exactly when the entries lead to different places and none leads to or below a report that is written on the JAR or on a class.

**C114 Breadcrumbs lead to the reports above** (proved; code: javatools/report.py:Reporter.get_relative_breadcrumbs, javatools/cheetah/report.tmpl; proofs: Props/Report)

  Theorems: `C114_path`, `C114_links`.
  relpath, normpath, abspath and join are modelled and proved to lead to the right place (Proofs/Paths). C114_path for all sub-reports as paths; C114_links for sub-reports below, as the value of the attribute, followed by the rules of RFC 3986: the links consist of dots and slashes.

**C115 Details links lead to the sub-report** (partial; code: javatools/cheetah/change_SquashedChange.tmpl, javatools/report.py:Reporter.subreporter; proofs: Props/LinkExact, Props/Report)

  Theorems: `C115_exact`, `C115_full_fails`, `C115_path`, `C115_partial`.
  C115_path: right as a path for all entries. False as a link, because nothing is quoted or percent-encoded (C115_full_fails); C115_partial: entries without # ? % : " &. C115_exact: of the entries that are names with slashes in between, without % and &, exactly those without #, ? and " and without a : in the first name have a link that leads to their report.

**C116 Escaped text shows as the text** (proved; code: javatools/cheetah/__init__.py:xml_entity_escape; proofs: Props/Report)

  Theorems: `C116_shows`, `C116_injective`, `C116_inert`.
  Induction over the text; htmlText decodes the references.

**C117 Links to style sheets and scripts** (partial; code: javatools/report.py:CheetahReportFormat._relative; proofs: Props/Report, Props/StyleExact)

  Theorems: `C117_full_fails`, `C117_path`, `C117_partial`, `C117_unchanged`, `C117_exact`.
  C117_path: relpath is right as a path; C117_full_fails: not percent-encoded; C117_partial: names without special characters; C117_unchanged for addresses. C117_exact: of the files whose names, from where their way leaves that of the report, have no % and &, exactly those are linked to whose such names have no #, ? and " and, if the file is below the directory of the report, no : in the first of them.

**C118 The data of HTML reports is copied once** (proved; code: javatools/report.py:CheetahReportFormat.setup; proofs: Props/Report)

  Theorems: `C118_once`, `C118_none`.
  Induction over the number of reports; the copy is a parameter.

**C119 The manifest listing is faithful** (proved; code: javatools/jarinfo.py:cli_jar_manifest_info, javatools/manifest.py:Manifest.load_from_jar; proofs: Props/JarInfoCli)

  Theorems: `C119_lists`, `C119_same`.
  Model/JarInfoCli mirrors cli_jar_manifest_info; C119_lists states the listing by permutation and order (no sorting function in the statement), C119_same that the listing determines the attributes and the other way round. Rests on the parser keeping colons out of keys and line breaks out of values (Proofs/Manifest).

**C120 A JAR without a manifest is reported as such** (partial; code: javatools/jarinfo.py:cli_jar_manifest_info, javatools/manifest.py:Manifest.load_from_jar; proofs: Props/Exact2, Props/JarInfoCli)

  Theorems: `C120_exact`, `C120_missing`, `C120_never`, `C120_full_fails`, `C120_partial`.
  False: load_from_jar raises MissingManifestError first, and a Manifest() is never empty (Manifest-Version), so 'Manifest not present.' is dead code (C120_never, C120_missing). Proved for JARs that have a manifest. C120_exact.

**C121 jarinfo prints the requested parts in order** (proved; code: javatools/jarinfo.py:cli_jarinfo, javatools/jarinfo.py:cli_jar_classes, javatools/jarinfo.py:cli; proofs: Props/JarInfoCli)

  Theorems: `C121_all`, `C121_unreadable`, `C121_broken`, `C121_parts`, `C121_files`.
  Parts as functions on the JarInfo with its caches; C121_parts is an equation for all option sets, C121_all / _unreadable / _broken / _files are exact about failures.

**C122 Text and JSON reports list the same symbols** (proved; code: javatools/jarinfo.py:cli_jar_provides, javatools/jarinfo.py:cli_jar_requires, javatools/jarinfo.py:cli_jarinfo_json, javatools/distinfo.py:cli_distinfo, javatools/distinfo.py:cli_distinfo_json; proofs: Props/JarInfoCli)

  Theorems: `C122_provides`, `C122_requires`, `C122_unreadable`, `C122_json`, `C122_dist`, `C122_dist_json`.
  Exact texts; the symbols are those of the specifications of C65 and C66. distinfo on archives fails for other reasons (C66).

**C123 jarinfo --zip shows the size of any archive** (partial; code: javatools/jarinfo.py:cli_jar_zip_info, javatools/jarinfo.py:cli_jarinfo_json; proofs: Props/Exact2, Props/JarInfoCli)

  Theorems: `C123_exact`, `C123_partial`, `C123_empty`, `C123_unnamed`, `C123_full_fails`.
  False for archives without data (ZeroDivisionError) and with an entry of the empty name (IndexError); exact theorems for both, proved otherwise. The percentage text is a parameter. C123_exact says for exactly which archives there is a report.

**C124 JSON reports answer what was asked** (partial; code: javatools/jarinfo.py:cli_jarinfo_json, javatools/distinfo.py:cli, javatools/distinfo.py:create_optparser; proofs: Props/Exact4, Props/JarInfoCli)

  Theorems: `C124_exact`, `C124_dropped`, `C124_partial`, `C124_full_fails`, `C124_files`, `C124_dist`.
  False: --manifest and --jar-classes are dropped by --json (C124_dropped), and distinfo accepts and drops all options of jarinfo and classinfo but the patterns (C124_dist). Proved without those options. Several files give several documents on the same stream (C124_files). C124_exact says for exactly which options and files text and JSON fail together.

**C125 A directory opened as an archive lists its tree** (proved; code: javatools/ziputils.py:_collect_infos, javatools/ziputils.py:ExplodedZipFile, javatools/ziputils.py:zip_entry_rollup; proofs: Props/ZipAccess)

  Theorems: `C125_names`, `C125_file`, `C125_dir`, `C125_missing`, `C125_totals`, `C125_read`, `C125_closed`, `C125_refresh`.
  Model/ZipAccess.lean: FsTree (directories with links and special files), collectInfos, Exploded. The spec is FileIn/DirIn (paths through directories); by induction over the tree, with the injectivity of slashed paths for uniqueness. CRC-32 is that of C57.

**C126 Only members of an exploded archive can be read** (partial; code: javatools/ziputils.py:ExplodedZipFile.open, javatools/ziputils.py:ExplodedZipFile.read; proofs: Props/Exact5, Props/ZipAccess)

  Theorems: `C126_exact`, `C126_plain_exact`, `C126_links`, `C126_partial`, `C126_absolute`, `C126_parent`, `C126_full_fails`.
  False: read joins the name to the directory and opens it. C126_links is exact for plain relative paths (links are followed); C126_absolute and C126_parent say what absolute paths and .. read. C126_partial: plain paths without links. C126_exact says for exactly which texts what is read is a member of that name, C126_plain_exact for exactly which directories all that is read under plain paths is one.

**C127 is_zipstream tells archives from other data and rewinds** (partial; code: javatools/ziputils.py:is_zipstream; proofs: Props/Exact5, Props/ZipStream)

  Theorems: `C127_exact`, `C127_other_exact`, `C127_archive_partial`, `C127_zip64`, `C127_other_partial`, `C127_view`, `C127_rewinds`, `C127_unusable`, `C127_bytes`, `C127_full_fails`.
  False: bytes and str raise TypeError on Python 3, streams without tell or seek raise (C127_unusable), an archive in several parts raises BadZipFile (C127_rewinds). zipfile._EndRecData is modelled in full (CPython 3.8-3.12). Proved for seekable streams and buffers without a ZIP64 locator. C127_exact says for exactly which arguments the record of an archive is recognised, also with a locator in front that leaves no room for the record it locates; C127_other_exact the same for data without the signature.

**C128 Archives that are opened are closed** (proved; code: javatools/dirutils.py:closing, javatools/dirutils.py:ClosingContext, javatools/ziputils.py:zip_file, javatools/ziputils.py:open_zip, javatools/ziputils.py:collect_compare_into; proofs: Props/ZipStream)

  Theorems: `C128_closes`, `C128_others`, `C128_zip_file`, `C128_with_zip`, `C128_collect`.
  withClosing and withZip give the outcome and what happened; all cases.

**C129 Comparison results are collected by kind** (proved; code: javatools/ziputils.py:collect_compare_zips_into, javatools/ziputils.py:collect_compare, javatools/dirutils.py:collect_compare_into; proofs: Props/ZipStream)

  Theorems: `C129_lists`, `C129_fresh`, `C129_named`, `C129_raises`.
  By induction over the events; C129_fresh relates it to the functions of C55 and C59.

**C130 The HTML template of a change is the most specific one** (proved; code: javatools/report.py:resolve_cheetah_template, javatools/report.py:_compose_cheetah_template_map; proofs: Props/Template)

  Theorems: `C130_map`, `C130_specific`, `C130_raises`, `C130_package`.
  Model: Model/Template (C3 linearization of any hierarchy; the 105 change classes and 26 templates of the package as tables). C130_map: which template a class has. C130_specific, C130_raises: all hierarchies in which each class is defined once, after its bases (Hier.Sound; changeClasses_sound for the package). C130_package: each change class of the package has an order and a template.

**C131 The template map does not depend on earlier calls** (partial; code: javatools/report.py:cheetah_template_map, javatools/report.py:_compose_cheetah_template_map; proofs: Props/Template)

  Theorems: `C131_exact`, `C131_partial`, `C131_full_fails`.
  C131_full_fails: after an exception from a template without a class, the next call gives the incomplete map. C131_exact: what a second call gives in every case. C131_partial: no difference where the first call succeeds. package_composed: with the templates of the package it does.

**C132 JSON data of a code constants change lists each differing instruction** (partial; code: javatools/classdiff.py:CodeConstantsChange.fn_pretty, javatools/classdiff.py:CodeConstantsChange.check_impl; proofs: Props/Exact3, Props/JsonData)

  Theorems: `C132_exact`, `C132_rows`, `C132_when`, `C132_lists`, `C132_partial`, `C132_full_fails`.
  Model/JsonData.lean mirrors CodeConstantsChange.fn_pretty and simplify; the offsets are those of the model of check_impl (C42). C132_rows and C132_when say exactly what is listed and when there is data; C132_lists says it in terms of the class file. False as stated: operands that are not constants are never listed (C132_full_fails). C132_partial: an instruction that loads a constant is listed on both sides, any other on neither. C132_exact: it holds exactly when every differing instruction has a constant argument.

**C133 A checked code comparison can be written as JSON** (partial; code: javatools/classdiff.py:CodeConstantsChange.fn_pretty, javatools/classdiff.py:CodeBodyChange.fn_pretty, javatools/change.py:GenericChange.simplify; proofs: Props/Exact4, Props/JsonData)

  Theorems: `C133_exact`, `C133_constants`, `C133_body`, `C133_partial`, `C133_full_fails`.
  False as stated: pretty_deref_const raises for method types and method handles, and checks stop at the first difference (C133_full_fails). C133_constants and C133_body are exact; C133_partial: valid code whose loaded constants are of the kinds that have a text. C133_exact says for exactly which code both changes can be written.

**C134 Options and files of the tools can be given in any order** (partial; code: javatools/classdiff.py:create_optparser, javatools/jardiff.py:create_optparser, javatools/distdiff.py:create_optparser, javatools/classdiff.py:add_general_optgroup, javatools/classdiff.py:add_classdiff_optgroup, javatools/jardiff.py:add_jardiff_optgroup, javatools/distdiff.py:add_distdiff_optgroup, javatools/report.py:add_general_report_optgroup, javatools/classinfo.py:create_optparser, javatools/jarinfo.py:create_optparser, javatools/distinfo.py:create_optparser, javatools/classinfo.py:add_classinfo_optgroup, javatools/jarinfo.py:add_jarinfo_optgroup, javatools/distinfo.py:add_distinfo_optgroup; proofs: Props/ArgParse)

  Theorems: `C134_together`, `C134_exact`, `C134_partial`, `C134_dashes`, `C134_full_fails`.
  Model/ArgParse.lean models argparse (CPython 3.11) for parsers with one positional argument (one word, two, or at least one), and the option tables of the six tools. Spells lists the ways to give options. C134_full is false: classdiff a -q b exits with status 2. C134_exact: among well-formed options and names a command line is accepted exactly if the names are as many as the tool takes and next to each other, and then as stated (C134_partial, C134_together); C134_dashes: behind -- every word is a name and there must be as many as the tool takes.

**C135 Every accepted command line names as many files as the tool takes** (proved; code: javatools/classdiff.py:create_optparser, javatools/jardiff.py:create_optparser, javatools/distdiff.py:create_optparser, javatools/classdiff.py:default_classdiff_options, javatools/jardiff.py:default_jardiff_options, javatools/distdiff.py:default_distdiff_options, javatools/classinfo.py:create_optparser, javatools/jarinfo.py:create_optparser, javatools/distinfo.py:create_optparser; proofs: Props/ArgParse)

  Theorems: `C135_files`, `C135_exits`, `C135_short`, `C135_defaults`.
  C135_files holds for all lists of words; C135_exits gives the two possible exits, C135_short and C135_defaults that too few words, or none, always exit.

**C136 Long options may be abbreviated as long as they are unambiguous** (proved; code: javatools/classdiff.py:create_optparser, javatools/jardiff.py:create_optparser, javatools/distdiff.py:create_optparser, javatools/classinfo.py:create_optparser, javatools/jarinfo.py:create_optparser, javatools/distinfo.py:create_optparser; proofs: Props/ArgParse)

  Theorems: `C136_unique`, `C136_equals`, `C136_ambiguous`.
  C136_unique and C136_equals replace an abbreviation by the option anywhere before --; C136_ambiguous refuses ambiguous ones, also as the argument of another option.

**C137 The exit status of classdiff depends on what options are given, not how** (proved; code: javatools/classdiff.py:main, javatools/classdiff.py:cli, javatools/classdiff.py:cli_classes_diff, javatools/classdiff.py:create_optparser; proofs: Props/ArgParse)

  Theorems: `C137_status`, `C137_attributes`, `C137_order`.
  C137_status gives the outcome of a silent run as the exit status of the comparison (C43) with exactly the attributes set that the options set, C137_attributes and C137_order follow. Sets is a table independent of the model. What printing and reports do is a parameter, hence silent runs without reports.

**C138 classinfo reports what the options say, whatever their order** (proved; code: javatools/classinfo.py:main, javatools/classinfo.py:cli, javatools/classinfo.py:create_optparser, javatools/classinfo.py:add_classinfo_optgroup, javatools/classinfo.py:cli_json_class; proofs: Props/InfoMain)

  Theorems: `C138_report`, `C138_refused`, `C138_order`.
  Model/InfoMain.lean: the events of the parser are folded into the namespace as argparse does. Means says what the options mean, option by option, independently of the fold; LevelOf is the last visibility option. C138_report: the output is that of classinfoCli (C98-C109) or the JSON documents with exactly these options; C138_order: two command lines with the same files and the same options print the same; C138_refused: names that are not next to each other are refused (C134).

**C139 jarinfo and distinfo report what the options say** (proved; code: javatools/jarinfo.py:main, javatools/jarinfo.py:cli, javatools/jarinfo.py:create_optparser, javatools/distinfo.py:main, javatools/distinfo.py:cli, javatools/distinfo.py:create_optparser; proofs: Props/InfoMain)

  Theorems: `C139_jarinfo`, `C139_distinfo`, `C139_ignored`.
  C139_jarinfo and C139_distinfo as C138_report; the reports are those of C119-C124. C139_ignored: leaving out all options of jarinfo and classinfo but --json and --api-ignore makes no difference to distinfo.

**C140 classdiff writes the report and returns the status that the options ask for** (proved; code: javatools/classdiff.py:main, javatools/classdiff.py:cli, javatools/classdiff.py:cli_classes_diff, javatools/classdiff.py:add_classdiff_optgroup, javatools/classdiff.py:_opt_cb_ignore, javatools/report.py:quick_report, javatools/report.py:add_general_report_optgroup; proofs: Props/DiffMain)

  Theorems: `C140_run`, `C140_means`, `C140_nothing`, `C140_order`, `C140_status`.
  Command line, namespace, reading, comparing, check, ignoring and output in one function (diffMain) for a run without --report; open() of the output is a table of exceptions; JSON as a document, not its text. C140_run against a specification of what the options mean (DiffMeans) and what a run does (RunIs); C140_means, C140_order, C140_status, C140_nothing.

**C141 jardiff and distdiff write the report and return the status that the options ask for** (partial; code: javatools/jardiff.py:main, javatools/jardiff.py:cli, javatools/jardiff.py:cli_jars_diff, javatools/jardiff.py:add_jardiff_optgroup, javatools/distdiff.py:main, javatools/distdiff.py:cli, javatools/distdiff.py:cli_dist_diff, javatools/classdiff.py:_opt_cb_ignore, javatools/report.py:quick_report; proofs: Props/DiffMain)

  Theorems: `C141_conflict`, `C141_exact`, `C141_partial`, `C141_order`, `C141_full_fails`.
  As C140, for archives and directories. False as stated: --ignore may name an option for patterns, which stores True in place of the list (C141_full_fails). C141_partial: exactly as stated if --ignore names no such option; C141_conflict and C141_exact say what happens otherwise; C141_order.

**C142 classdiff --report writes one report in each format and otherwise behaves as without** (proved; code: javatools/classdiff.py:main, javatools/classdiff.py:cli_classes_diff, javatools/classdiff.py:JavaClassReport.check, javatools/report.py:Reporter.run, javatools/report.py:ReportFormat.run, javatools/report.py:_opt_cb_report; proofs: Props/ReportMain)

  Theorems: `C142_run`, `C142_same`, `C142_none`.
  reportMain (Model/ReportMain) composes the parsed command line, the comparison, the reporter and the formats; the page templates and the failures of writing are parameters. C142_run: the three outcomes with the files that are there; C142_same: the same output and status as without --report; C142_none: a list of commas alone.

**C143 jardiff --report writes a report for each changed class and one for the archives** (proved; code: javatools/jardiff.py:main, javatools/jardiff.py:cli_jars_diff, javatools/jardiff.py:JarReport.check, javatools/jardiff.py:JarContentsReport.collect_impl, javatools/jardiff.py:JarContentsReport.check_impl, javatools/jardiff.py:JarClassReport.collect_impl, javatools/report.py:Reporter.run, javatools/report.py:Reporter.subreporter; proofs: Props/ReportKept, Props/ReportMain)

  Theorems: `C143_kept`, `C143_which`, `C143_run`, `C143_status`.
  As C142 with the reports of the classes inside. C143_run: the files in order, each class with the text of the comparison of its two versions (ClassReports), and the printed comparison in brief (Brief); C143_which: for archive files the reported classes are those in both with different content; C143_status: the status is the one without --report. C143_kept: the reports of the first classes are written whatever happens to the later ones.

**C144 distdiff --report writes a report for each changed JAR and class and one for the distributions** (proved; code: javatools/distdiff.py:main, javatools/distdiff.py:cli_dist_diff, javatools/distdiff.py:DistReport.check, javatools/distdiff.py:DistReport.collect_impl, javatools/distdiff.py:DistReport.check_impl, javatools/distdiff.py:DistReport.mp_check_impl, javatools/distdiff.py:DistJarReport.collect_impl, javatools/distdiff.py:DistClassReport.collect_impl, javatools/report.py:Reporter.setup; proofs: Props/DistReportMain)

  Theorems: `C144_which`, `C144_run`, `C144_status`.
  Model/DistReportMain: cli_dist_diff, DistReport with and without processes (the transition system of Model/DistMp over changes with the files written for them). C144_run: the outcome of every run; C144_which: which files have reports, for all trees; C144_status: the status without --report. With processes the files are listed report by report; runs that do not end are no runs (see C145).

**C145 The number of worker processes does not matter to distdiff** (partial; code: javatools/distdiff.py:main, javatools/distdiff.py:cli_dist_diff, javatools/distdiff.py:add_distdiff_optgroup, javatools/distdiff.py:DistReport.check_impl, javatools/distdiff.py:DistReport.mp_check_impl, javatools/distdiff.py:_mp_run_check; proofs: Props/DistReportMain)

  Theorems: `C145_same`, `C145_raises`, `C145_partial`, `C145_hangs`, `C145_negative`, `C145_full_fails`.
  The claim is false: a class that cannot be read makes every parallel run hang (C145_full_fails, C145_hangs), and so does a negative number (C145_negative). Proved: a run that raises nothing is the run without processes (C145_same); if a run raises, so does the one without (C145_raises); if no number is negative and the run without processes raises nothing, it is the only run for any number (C145_partial).

**C146 A checked change keeps its answers** (proved; code: javatools/change.py:SuperChange.collect, javatools/change.py:SuperChange.check_impl, javatools/change.py:SuperChange.is_ignored, javatools/change.py:GenericChange.check; proofs: Props/Lifecycle)

  Theorems: `C146_stable`, `C146_again`, `C146_before`, `C146_refines`.
  Change objects with their state (verdict and cache of children, and the state an exception leaves) are modelled as a tree, clients as arbitrary sequences of questions at paths; a normal form that fills every cache is shown to determine all answers and to be kept by every call. C146_refines connects the objects with the cache-free trees of Model/Change.

**C147 Collecting the children of a change afresh** (partial; code: javatools/change.py:SuperChange.collect, javatools/change.py:SuperChange.is_ignored; proofs: Props/LifeExact, Props/Lifecycle)

  Theorems: `C147_exact`, `C147_recheck`, `C147_partial`, `C147_stale`, `C147_full_fails`.
  False in full: the children collected afresh are unchecked, so until the next check is_ignored answers True for a change (C147_full_fails; C147_stale says exactly when). Proved: checking again restores every answer (C147_recheck), and is_change and the description do not change (C147_partial). C147_exact says it exactly: with a first check that succeeds, collecting afresh alters no answer just when, for a composite that found a change and asks its children under the given options, the unchecked children are all ignored exactly if the checked ones are.

**C148 A change whose children were squashed can still be examined and checked** (proved; code: javatools/change.py:SuperChange.squash_children, javatools/change.py:squash, javatools/change.py:SquashedChange, javatools/change.py:SuperChange.check_impl; proofs: Props/Lifecycle)

  Theorems: `C148_squash`.
  Proved from the normal form of C146: squashed children have the verdict of the children, and check leaves squashed objects alone.

**C149 The text of the source debug extension** (partial; code: javatools/__init__.py:JavaClassInfo.get_source_debug_extension; proofs: Props/Accessors)

  Theorems: `C149_full_fails`, `C149_never`, `C149_partial`.
  False: str() of bytes is their display. C149_never: the answer is never the text; C149_partial: None iff absent or empty, and equal answers mean equal bytes (the display is read back byte by byte).

**C150 Answers that objects keep do not depend on what was asked before** (proved; code: javatools/__init__.py:JavaClassInfo._get_annotations, javatools/__init__.py:JavaMemberInfo._get_annotations, javatools/__init__.py:JavaCodeInfo.get_linenumbertable, javatools/__init__.py:JavaCodeInfo.disassemble, javatools/__init__.py:JavaCodeInfo.iter_code_by_lines; proofs: Props/Accessors)

  Theorems: `C150_member`, `C150_code`, `C150_class`.
  Invariant: each slot is empty or holds what a fresh computation gives.

**C151 The constants of a pool are enumerated completely and in order** (proved; code: javatools/__init__.py:JavaConstantPool.constants, javatools/__init__.py:JavaConstantPool.get_const; proofs: Props/Accessors)

  Theorems: `C151_constants`, `C151_well_typed`, `C151_file`.
  Induction over the loop; C151_file ties the tags to the bytes of the file, C151_well_typed the values to the denotation of C09.

**C152 A class object can be unpacked again** (partial; code: javatools/__init__.py:JavaClassInfo.unpack, javatools/__init__.py:JavaAttributes.unpack; proofs: Props/Accessors)

  Theorems: `C152_exact`, `C152_partial`, `C152_full_fails`, `C152_stale`.
  False: attributes are put into the old dictionary and the caches stay. C152_exact gives the answers, C152_stale the kept annotations; C152_partial needs an object without kept answers and without attributes the new class lacks.

**C153 The HTML reports list every child once under its heading** (proved; code: javatools/cheetah/jardiff_JarReport.tmpl, javatools/cheetah/distdiff_DistReport.tmpl, javatools/change.py:squash; proofs: Props/Html)

  Theorems: `C153_exact`, `C153_headings`, `C153_shown`, `C153_every`, `C153_once`, `C153_jar`, `C153_dist`.
  Model/Html: squash, grouping by type and the order of headings. By induction over the children; the groups are characterised exactly (`C153_exact`). With two children of the same heading and entry only the last is shown, so showing each once has that hypothesis. The headings are listed in the statements of C153_jar and C153_dist.

**C154 The cells of the table of code make up full columns** (proved; code: javatools/cheetah/classdiff_MethodCodeChange.tmpl, javatools/classdiff.py:merge_code; proofs: Props/HtmlTable)

  Theorems: `C154_changed`, `C154_unchanged`, `C154_page`, `C154_which`.
  Model/Html gives the cells with their spans, Spec/Table reads a table by the rules of HTML, independently of how the template makes it. The proof is by induction over lines and instructions.

**C155 The HTML report shows the text of every annotation** (partial; code: javatools/cheetah/classdiff_AnnotationsChange.tmpl, javatools/__init__.py:JavaAnnotation.pretty_annotation; proofs: Props/Html)

  Theorems: `C155_exact`, `C155_full_fails`, `C155_marker_blank`, `C155_partial`, `C155_unchanged`.
  False: marker annotations are blank in the changed table (`C155_full_fails`, `C155_marker_blank`). `C155_exact` says what each row shows; `C155_partial` covers annotations with elements, `C155_unchanged` the other table.

**C156 The HTML report shows the value of every constant** (partial; code: javatools/cheetah/classdiff_ClassConstantPoolChange.tmpl, javatools/classdiff.py:pretty_merge_constants; proofs: Props/Html)

  Theorems: `C156_full_fails`, `C156_exact`, `C156_zero_blank`, `C156_partial`, `C156_unchanged`.
  False: constants of value 0 are blank in the changed table (`C156_full_fails`, `C156_zero_blank`). `C156_exact` says what each row shows; `C156_partial` covers pools without such constants, `C156_unchanged` the other table.

**C157 Texts of a class cannot add markup to the HTML report** (partial; code: javatools/cheetah/classdiff_ClassInfoChange.tmpl, javatools/cheetah/classdiff_FieldChange.tmpl, javatools/cheetah/classdiff_MethodChange.tmpl, javatools/cheetah/classdiff_AnnotationsChange.tmpl, javatools/cheetah/change_SquashedChange.tmpl; proofs: Props/ClassForm, Props/Markup, Props/MarkupCode)

  Theorems: `C157_classes`, `C157_partial`, `C157_full_fails`, `C157_class_name`, `C157_entry`, `C157_link`, `C157_link_fails`, `C157_code`, `C157_words`.
  False (`C157_full_fails`; `C157_class_name` and `C157_link_fails` put any tag into the page). Model/Markup has the templates as sequences of tags, escaped and unescaped texts; Spec/Markup reads the tags of a page. `C157_partial`: if the unescaped texts (`ClassPage.raws`) have no `<`, the tags are those of the blank page. `C157_code` and `C157_words` show that code, flags and platforms never have one; `C157_entry`, `C157_link` are about entries. C157_classes: for the page made from two classes it follows from names of classes and texts of annotations without <.

**C158 The HTML report on a class is well-formed** (partial; code: javatools/cheetah/classdiff_MethodAdded.tmpl, javatools/cheetah/classdiff_FieldChange.tmpl, javatools/cheetah/classdiff_MethodChange.tmpl, javatools/cheetah/classdiff_ClassConstantPoolChange.tmpl; proofs: Props/ClassForm, Props/Markup)

  Theorems: `C158_classes`, `C158_exact`, `C158_partial`, `C158_members_fail`, `C158_full_fails`.
  False (`C158_full_fails`). `C158_exact`: where no text spoils the tags, a report is well-formed if and only if it has no added method, no changed member with unchanged name or type, and no equal constants in a changed pool; `C158_partial` is one half of that. By running a stack of open elements over the templates. C158_classes: for the page made from two compiled classes it holds if and only if they have no field in common, the new class has no methods at all, and a changed constant pool has no equal constants at one index.

**C159 jarutil create packs the paths its command line names** (partial; code: javatools/jarutil.py cli_create_jar, javatools/jarutil.py create_jar; proofs: Props/KnownArgs)

  Theorems: `C159_words`, `C159_exact`, `C159_partial`, `C159_contents`, `C159_full_fails`.
  Model/KnownArgs.lean models `parse_known_args` (CPython 3.11) for several positional arguments of one word, `nargs="+"` and words left over. A command line is a list of CmdPiece (options as spelled in C134, words, unknown options). `C159_words`: without `--` exactly as stated, unknown options being packed as paths too; `C159_contents`: the entries of the archive (with C95). False with `--` (`C159_full_fails`): `C159_exact` says when `--` itself becomes a path; `C159_partial` is the rest.

**C160 jarutil create sets the main class** (partial; code: javatools/jarutil.py cli_create_jar; proofs: Props/CmdLines)

  Theorems: `C160_exact`, `C160_ignored`, `C160_partial`, `C160_full_fails`.
  False (`C160_full_fails`): the option is never looked at. `C160_exact`: the manifest has nothing but its version; `C160_ignored`: command lines with the same words make the same archive; `C160_partial`: as stated if no main class is given.

**C161 jarutil sign does what its options say in any order** (proved; code: javatools/jarutil.py cli_sign_jar; proofs: Props/CmdLines)

  Theorems: `C161_words`, `C161_dashes`.
  `C161_words` for command lines without `--`, `C161_dashes` with words behind `--`; `signMeans` says what the options mean, using the model of `cli_sign_jar` behind its parser (C96).

**C162 manifest create does what its options say in any order** (partial; code: javatools/manifest.py cli_create; proofs: Props/CmdLines)

  Theorems: `C162_partial`, `C162_dashes`, `C162_exact`, `C162_swallowed`, `C162_full_fails`.
  False (`C162_full_fails`): `-i` takes all the words behind it. `C162_exact`: a command line means what it means with the words directly behind patterns as patterns (`swallow`); `C162_swallowed`: with the content there it is refused; `C162_partial`: as stated if no word is directly behind patterns; `C162_dashes`: or if the content is behind `--`.

**C163 Archives with a readable manifest can be signed** (partial; code: javatools/jarutil.py sign, javatools/manifest.py Manifest.add_jar_entries, javatools/manifest.py SignatureManifest.digest_manifest, javatools/manifest.py write_key_val; proofs: Props/SignExact)

  Theorems: `C163_exact`, `C163_partial`, `C163_empty`, `C163_full_fails`.
  C163_full is false (C163_full_fails: `Class-Path: ` with an empty value). C163_exact gives the exact condition: every attribute of the main section and of the sections that are kept (those of entries that are not recorded anew) has a name of 1 to 68 bytes and a value, and recorded entries have names. Keys and certificates are assumed to work (`Usable`), digests not to be empty.

**C164 create, sign and verify work together** (partial; code: javatools/jarutil.py cli_create_jar, javatools/jarutil.py cli_sign_jar, javatools/jarutil.py cli_verify_jar_signature; proofs: Props/Workflow)

  Theorems: `C164_partial`, `C164_printable`, `C164_full_fails`.
  Composition of the models of the three commands; the archive one command writes is what the next one reads (zipfile is trusted). C164_full is false (a file name with a line break); C164_partial is for aliases without slash and NUL, paths that bring no manifest, signature file or block file of the alias, and names that can be recorded in a manifest (SafeName: no line breaks, no character broken by the folding); C164_printable is the plain case of printable names outside META-INF.

**C165 The build lists the files it makes** (partial; code: javatools/cheetah/setuptools.py find_package_templates, javatools/cheetah/setuptools.py build_template, javatools/cheetah/setuptools.py get_template_outputs; proofs: Props/Build)

  Theorems: `C165_distinct`, `C165_listed`, `C165_none`, `C165_full_fails`, `C165_partial`, `C165_exact`.
  Model/Build: the build command for templates (javatools/cheetah/setuptools.py) over arbitrary directory listings, files with modification times and any compiler. Fails only for distributions without packages, for which listing raises (C165_exact); C165_listed gives the exact list, C165_distinct that no two templates share a file.

**C166 A successful build leaves every template compiled** (partial; code: javatools/cheetah/setuptools.py build_template, javatools/cheetah/setuptools.py build_package_templates; proofs: Props/Build)

  Theorems: `C166_each`, `C166_exact`, `C166_partial`, `C166_full_fails`, `C166_failed`.
  False: the output is only compared by modification time. C166_each/C166_exact say exactly which templates are compiled and when the property holds; C166_partial is the build into an empty directory; C166_failed that a failed build is not noticed by the next one. Assumes that Cheetah compiles in str(), after the output was opened.

**C167 Every compiled template is found at run time** (partial; code: javatools/cheetah/__init__.py _iter_templates, javatools/cheetah/__init__.py get_templates, javatools/cheetah/setuptools.py build_template; proofs: Props/Build)

  Theorems: `C167_exact`, `C167_full_fails`, `C167_found`, `C167_partial`, `C167_package`.
  C167_exact: when get_templates raises and what it gives otherwise, for any directory; C167_found: which compiled templates are found (all but those with a dot in the name or called setuptools or __init__); C167_package: for the templates of the package this is the list from which the template lookup (C130) starts.

**C168 The HTML page of a report on an archive or a distribution is well-formed XML** (partial; code: javatools/cheetah/report.tmpl, javatools/cheetah/jardiff_JarContentsReport.tmpl, javatools/cheetah/distdiff_DistReport.tmpl, javatools/cheetah/change_Change.tmpl, javatools/cheetah/change_SquashedChange.tmpl, javatools/cheetah/manifest_ManifestChange.tmpl; proofs: Props/Page)

  Theorems: `C168_jquery`, `C168_exact`, `C168_exact_dist`, `C168_partial`, `C168_full_fails`.
  Model/Page puts the page together from report.tmpl and the templates of archives and distributions. False for every page with the reference to jQuery, whatever it shows (C168_jquery); with addresses without quotes, true exactly without it (C168_exact, C168_exact_dist). White space is not modelled; entities in text are not part of the claim.

**C169 Names cannot add elements or attributes to the page of an archive or a distribution** (partial; code: javatools/cheetah/report.tmpl, javatools/cheetah/change_SquashedChange.tmpl, javatools/cheetah/jardiff_JarContentChange.tmpl, javatools/cheetah/distdiff_DistContentChange.tmpl; proofs: Props/Page)

  Theorems: `C169_partial`, `C169_full_fails`.
  False through the links of changed classes and JARs (C169_full_fails); proved for any label and any other name when the names in links have no quotes (C169_partial).

**C170 The HTML page of a JAR comparison shows every entry of either archive exactly once, under the right heading** (partial; code: javatools/jardiff.py:JarReport, javatools/jardiff.py:JarContentsReport, javatools/cheetah/jardiff_JarContentsReport.tmpl, javatools/cheetah/report.tmpl, javatools/cheetah/change_Change.tmpl; proofs: Props/JarPage)

  Theorems: `C170_partial`, `C170_full_fails`.
  Model/JarPage puts the checked changes of a JarReport into the templates; Spec/Page reads headings and names back from the characters of the page. Composes the archive comparison (C55), the change objects (C67), the grouping (C153) and the page (C168). False because names are put into links unquoted (C170_full_fails: a class name that adds a heading); C170_partial needs non-empty names, and no quotes in the names of classes that both archives have with different contents.

**C171 The HTML page of a distribution comparison shows every file of either distribution exactly once, under the right heading** (partial; code: javatools/distdiff.py:DistReport, javatools/distdiff.py:DistChange, javatools/cheetah/distdiff_DistReport.tmpl, javatools/cheetah/change_SquashedChange.tmpl, javatools/cheetah/report.tmpl; proofs: Props/DistPage)

  Theorems: `C171_partial`, `C171_full_fails`.
  Model/DistPage takes the children of a checked DistReport to the templates of Model/Page; what is shown is read off the rendered characters by Spec/Page (shownOn). False in full: a class or JAR whose path contains a quotation mark breaks out of its link and can add a heading (C171_full_fails). Proved for trees without a file on one side that is a directory on the other, in which files of the same size and time are the same (both as in C59), and with no quotation mark in the path of a changed class or JAR.

**C172 The HTML page of a class comparison names every field and method of either class in exactly one heading** (partial; code: javatools/classdiff.py:ClassFieldsChange, javatools/classdiff.py:ClassMethodsChange, javatools/classdiff.py:JavaClassReport, javatools/cheetah/classdiff_FieldChange.tmpl, javatools/cheetah/classdiff_MethodChange.tmpl, javatools/cheetah/classdiff_MethodAdded.tmpl, javatools/cheetah/classdiff_MethodRemoved.tmpl; proofs: Props/ClassPageText)

  Theorems: `C172_partial`, `C172_exact`, `C172_full_fails`.
  Model/ClassPage takes the checked changes of a JavaClassReport and the data that the templates ask the classes for to the templates of Model/Markup; the headings are read off the rendered characters (headedOn, shownMembers in Props/ClassPage). That no text spoils the tags is proved from the classes (page_clean). False in full: added and removed fields are shown without their names (C172_full_fails). C172_exact: it holds for exactly the pairs of classes without added or removed fields; C172_partial: all methods and the kept fields.

**C173 The exit status of a class comparison is what the marks on its HTML page say** (proved; code: javatools/classdiff.py:cli_classes_diff, javatools/classdiff.py:JavaClassReport, javatools/change.py:SuperChange.is_ignored, javatools/cheetah/change_Change.tmpl; proofs: Props/ClassLoud)

  Theorems: `C173_status`.
  The marks are read off the tags of the rendered page (loudOn in Props/ClassLoud); proved from the classes on with page_clean of C172, over all blocks at all depths, and the composite rule of is_ignored (C35).

**C174 The exit status of a JAR comparison is what the marks on its HTML page say** (partial; code: javatools/jardiff.py:cli_jars_diff, javatools/jardiff.py:JarReport, javatools/change.py:SuperChange.is_ignored, javatools/manifest.py:ManifestChange.is_ignored, javatools/cheetah/change_Change.tmpl, javatools/cheetah/change_SquashedChange.tmpl; proofs: Props/JarLoud)

  Theorems: `C174_partial`, `C174_full_fails`, `C174_exact`.
  The marks are read off the tags of the rendered page (loudOn); what the templates are given comes from the archives (Model/JarPage). False: parts of an entry that is ignored by an option are marked as changed (C174_full_fails with --ignore-manifest). C174_partial: status 1 always shows a marked block; status and page agree whenever no changed entry other than a class is ignored by a pattern or by --ignore-manifest or --ignore-jar-signature. Classes may be ignored in any way, as their blocks have no parts on this page. Names of changed classes have no quotation marks (C169). C174_exact says for exactly which comparisons it holds: those with status 1, and those without an ignored entry that has changes below it which are not ignored.

**C175 The exit status of a distribution comparison is what the marks on its HTML page say** (partial; code: javatools/distdiff.py:cli_dist_diff, javatools/distdiff.py:DistReport, javatools/distdiff.py:DistTextChange.is_ignored, javatools/change.py:SuperChange.is_ignored, javatools/cheetah/change_Change.tmpl, javatools/cheetah/change_SquashedChange.tmpl; proofs: Props/DistLoud)

  Theorems: `C175_partial`, `C175_full_fails`, `C175_exact`.
  As C174, with the trees of Model/DistPage; no condition on the trees themselves (files that clash with directories and files of the same size and time included). False with --ignore-trailing-whitespace (C175_full_fails). C175_partial: status 1 always shows a marked block; they agree whenever no changed text or manifest is ignored by a pattern, as white space, or by --ignore-manifest. C175_exact says for exactly which comparisons they agree, in the same way.

**C176 The JSON report of a JAR comparison has one object for every entry** (proved; code: javatools/jardiff.py:JarContentsChange, javatools/jardiff.py:JarChange, javatools/change.py:SuperChange.simplify, javatools/report.py:JSONReportFormat, javatools/ziputils.py:compare_zips; proofs: Props/JarExact, Props/JarJson)

  Theorems: `C176_exact`, `C176_all`, `C176_differing`.
  The report is the simplified tree of Model/Change.toJson; C176_all and C176_differing are the two halves of the statement. Differing manifests and signature files are listed as their own comparison finds (not part of the claim). C176_exact: without the options, exactly the entries that count in the sense of C73_exact are listed, each once.

**C177 The JSON report of a distribution comparison has one object for every file** (partial; code: javatools/distdiff.py:DistChange.collect_impl, javatools/distdiff.py:DistContentChange, javatools/distdiff.py:DistTextChange, javatools/change.py:SuperChange.simplify, javatools/report.py:JSONReportFormat, javatools/dirutils.py:compare; proofs: Props/DistExact, Props/DistJson)

  Theorems: `C177_exact`, `C177_partial`, `C177_full_fails`.
  As C176 for directory trees. False: a differing file of no special kind is not listed (C177_full_fails, the defect of C63). C177_partial, for trees without a file on one side that is a directory on the other, in which files of the same size and time are the same (both as in C59): with the options all files are listed; without them no file twice and only files that are not the same and not ignored, and of these all added and removed ones, texts whose lines differ, and classes and JARs in whose own comparison a change is found. C177_exact: without the options, exactly the files that count in the sense of C63_exact are listed, each once.

**C178 The tables of the HTML page of a class comparison show the properties of the classes** (proved; code: javatools/cheetah/classdiff_ClassInfoChange.tmpl, javatools/cheetah/classdiff_FieldChange.tmpl, javatools/cheetah/classdiff_MethodChange.tmpl, javatools/cheetah/classdiff_MethodAdded.tmpl, javatools/cheetah/classdiff_MethodRemoved.tmpl, javatools/change.py:collect_by_typename, javatools/classdiff.py:ClassInfoChange, javatools/classdiff.py:FieldChange, javatools/classdiff.py:MethodChange; proofs: Props/ClassRows)

  Theorems: `C178_rows`, `C178_texts`.
  The tables are read from the rendered characters (tablesOn in Props/ClassRows); what each should be is given by the lists classProps, fieldProps, methodProps and singleProps of properties with the condition under which the versions differ. Proved from the classes on with page_clean of C172. White space inside cells is not modelled.

**C179 The table of constants on the HTML page of a class comparison** (partial; code: javatools/cheetah/classdiff_ClassConstantPoolChange.tmpl, javatools/classdiff.py:pretty_merge_constants, javatools/classdiff.py:ClassConstantPoolChange, javatools/__init__.py:JavaConstantPool.pretty_constants; proofs: Props/ClassConsts)

  Theorems: `C179_exact`, `C179_partial`, `C179_full_fails`.
  The table is read from the rendered characters (constReader.read, Props/PageTables and Props/ClassConsts); constText gives type and value of a constant (C102). False for pools of different sizes: the last index that both have is listed again, as if one class lacked it (C179_full_fails, the defect of C34 seen on the page); and of the number 0 only the type is shown (the defect of C156). C179_exact gives the rows for all pools; C179_partial: without the number 0 all of the claim for equal pools and for pools of the same length, and otherwise that every index has its row.

**C180 The tables of annotations on the HTML page of a class comparison** (partial; code: javatools/cheetah/classdiff_AnnotationsChange.tmpl, javatools/classdiff.py:AnnotationsChange, javatools/classdiff.py:ClassAnnotationsChange, javatools/classdiff.py:FieldAnnotationsChange, javatools/classdiff.py:MethodAnnotationsChange; proofs: Props/ClassAnnos)

  Theorems: `C180_exact`, `C180_partial`, `C180_full_fails`.
  The tables are read from the rendered characters (annoReader.read, Props/PageTables and Props/ClassAnnos); annoText gives the text of an annotation, annosDiffer compares two lists as Python does. False: where the lists differ, an annotation without elements such as @Override is left blank (C180_full_fails, the defect of C155 seen on the page). C180_exact gives the tables for all classes; C180_partial is the claim for classes whose annotations all have elements.

**C181 The tables of code on the HTML page of a class comparison** (proved; code: javatools/cheetah/classdiff_MethodCodeChange.tmpl, javatools/cheetah/classdiff_MethodChange.tmpl, javatools/classdiff.py:merge_code, javatools/classdiff.py:MethodCodeChange, javatools/__init__.py:JavaCodeInfo.iter_code_by_lines; proofs: Props/ClassCode)

  Theorems: `C181_tables`.
  The tables, their titles, cells and spans are read from the rendered characters (codeTablesOn in Props/ClassCode); readColumns (Spec/Table) fills the columns from the spans as a browser does and fails on gaps and overlaps. The contents are those of C154 (shownGroup, shownPlain). A rowspan of 1, which the template also writes, is left out in the model.

**C182 Dictionaries that describe fields and methods** (partial; code: javatools/classinfo.py:cli_simplify_field, javatools/classinfo.py:cli_simplify_method; proofs: Props/Simplify)

  Theorems: `C182_field`, `C182_method`, `C182_partial`, `C182_full_fails`, `C182_exact`, `C182_method_exact`.
  FieldHas and MethodHas say what the member has in terms of the constant pool (Spec/Descriptor gives descriptors and Java types); memberSays is what the dictionary should say under each key. False: is_deprecated is false for an empty Deprecated attribute, which is what class files have (the defect of C13), so the key is missing (C182_full_fails). C182_field and C182_method give the dictionaries in all cases, C182_exact and C182_method_exact say for which members they are as they should be.
