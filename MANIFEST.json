{
 "claims": [
  {
   "property": "C01",
   "status": "proved",
   "theorems": [
    "Javatools.C01_bytes_stream_agree",
    "Javatools.C01_bytes_stream_agree_at"
   ],
   "note": "Every decoding routine (tree of reads) gives the same result on bytes and on a stream."
  },
  {
   "property": "C02",
   "status": "proved",
   "theorems": [
    "Javatools.C02_trailing_ignored",
    "Javatools.C02_truncation_detected",
    "Javatools.C02_no_wrong_value"
   ],
   "note": "Trailing data ignored, every shorter prefix refused with UnpackException; class-file instance is C06_truncated_class_refused."
  },
  {
   "property": "C03",
   "status": "proved",
   "theorems": [
    "Javatools.C03_failed_reads_consume_nothing",
    "Javatools.C03_failed_call_erasable",
    "Javatools.C03_closed_yields_nothing"
   ],
   "note": "Histories of reads with caught failures on the bytes unpacker; closed unpackers yield nothing."
  },
  {
   "property": "C04",
   "status": "proved",
   "theorems": [
    "Javatools.C04_decode_encode",
    "Javatools.C04_encode_decode",
    "Javatools.C04_decode_injective",
    "Javatools.C04_reads_are_structs"
   ],
   "note": "All struct formats used, both directions, with ranges."
  },
  {
   "property": "C05",
   "status": "proved",
   "theorems": [
    "Javatools.C05_cache_transparent",
    "Javatools.C05_formats_not_confused"
   ],
   "note": "Any history of compile_struct calls with any caches."
  },
  {
   "property": "C06",
   "status": "proved",
   "theorems": [
    "Javatools.C06_unpack_inverts_encoding",
    "Javatools.C06_parts",
    "Javatools.C06_truncated_class_refused",
    "Javatools.C06_encoding_determines_object"
   ],
   "note": "Encoding of any structure decodes to the object it describes; Utf8 text as in C11 and repeated attribute names as in C12."
  },
  {
   "property": "C07",
   "status": "proved",
   "theorems": [
    "Javatools.C07_pool_indices",
    "Javatools.C07_pool_slots_any_data"
   ],
   "note": "Encoded pools of any length and, separately, arbitrary accepted data."
  },
  {
   "property": "C08",
   "status": "proved",
   "theorems": [
    "Javatools.C08_is_class_iff",
    "Javatools.C08_unpack_class_rejects",
    "Javatools.C08_unpacked_is_class"
   ],
   "note": "All byte strings, bytes and streams."
  },
  {
   "property": "C09",
   "status": "proved",
   "theorems": [
    "Javatools.C09_deref_denotes",
    "Javatools.C09_denotation_unique"
   ],
   "note": "All well-typed pools; four nested calls suffice whatever the size."
  },
  {
   "property": "C10",
   "status": "proved",
   "theorems": [
    "Javatools.C10_bad_index",
    "Javatools.C10_cycle_never_yields",
    "Javatools.C10_cycle_recursion_error",
    "Javatools.C10_recursion_error_means_cycle"
   ],
   "note": "Bad indices, empty slots, cycles, and the converse (RecursionError only with a cycle)."
  },
  {
   "property": "C11",
   "status": "partial",
   "theorems": [
    "Javatools.C11_full_fails",
    "Javatools.C11_decodes_non_surrogates",
    "Javatools.C11_utf8_bmp_partial",
    "Javatools.C11_bmp_injective_partial",
    "Javatools.C11_exact"
   ],
   "note": "Full statement C11_full is refuted (supplementary characters are dropped); exact behaviour for all strings and the full claim for BMP strings are proved. C11_exact: the texts that survive are exactly those without supplementary characters."
  },
  {
   "property": "C12",
   "status": "partial",
   "theorems": [
    "Javatools.C12_get_attribute",
    "Javatools.C12_full_fails",
    "Javatools.C12_all_retrievable_partial",
    "Javatools.C12_exact"
   ],
   "note": "Full statement C12_full is refuted (repeated names overwrite); exact behaviour for all tables and the claim for distinct names are proved. C12_exact says for exactly which attribute tables the full statement holds."
  },
  {
   "property": "C13",
   "status": "partial",
   "theorems": [
    "Javatools.C13_full_fails",
    "Javatools.C13_conforming_never_reported",
    "Javatools.C13_absent_not_reported_partial",
    "Javatools.C13_exact"
   ],
   "note": "Full statement C13_full is refuted: the mandated zero-length attribute is falsy. Missing: reporting a present attribute. C13_exact says for exactly which attribute tables the answer is right."
  },
  {
   "property": "C14",
   "status": "proved",
   "theorems": [
    "Javatools.C14_total_on_known",
    "Javatools.C14_value",
    "Javatools.C14_rows_disjoint",
    "Javatools.C14_monotone"
   ],
   "note": "All natural major/minor numbers."
  },
  {
   "property": "C15",
   "status": "proved",
   "theorems": [
    "Javatools.C15_class_bits",
    "Javatools.C15_member_bits",
    "Javatools.C15_keywords_distinct",
    "Javatools.C15_member_keywords",
    "Javatools.C15_class_keywords"
   ],
   "note": "All flag words; keyword theorem for members assumes no Synthetic attribute, which also counts as the synthetic flag."
  },
  {
   "property": "C16",
   "status": "partial",
   "theorems": [
    "Javatools.C16_exact",
    "Javatools.C16_field_by_name",
    "Javatools.C16_methods_by_name",
    "Javatools.C16_get_method",
    "Javatools.C16_bridges_full_fails",
    "Javatools.C16_get_method_bridges_partial",
    "Javatools.C16_bridges_list_empty"
   ],
   "note": "Names and descriptors are assumed to dereference. The claim for get_method_bridges is refuted for list arguments and proved for tuples. C16_exact says for exactly which lists the answer is right."
  },
  {
   "property": "C17",
   "status": "proved",
   "theorems": [
    "Javatools.C17_element_value",
    "Javatools.C17_annotations",
    "Javatools.C17_parameter_annotations",
    "Javatools.C17_accepts_exactly",
    "Javatools.C17_annotations_exactly"
   ],
   "note": "Element names distinct and Utf8; nesting within the recursion limit (depth argument)."
  },
  {
   "property": "C18",
   "status": "partial",
   "theorems": [
    "Javatools.C18_equal_iff_same_meaning",
    "Javatools.C18_renumbering",
    "Javatools.C18_symmetric",
    "Javatools.C18_reflexive_full_fails",
    "Javatools.C18_reflexive_partial",
    "Javatools.C18_float_equality",
    "Javatools.C18_exact"
   ],
   "note": "Full reflexivity is refuted (NaN constants). Equality iff same meaning, symmetry and pool independence hold for all annotations whose constants dereference; equality of constants is Python ==. C18_exact: an annotation equals itself exactly if there is no NaN in it."
  },
  {
   "property": "C19",
   "status": "partial",
   "theorems": [
    "Javatools.C19_full_fails",
    "Javatools.C19_exact",
    "Javatools.C19_annotationdefault_partial"
   ],
   "note": "Full statement C19_full is refuted: the tag byte is read as part of the index; exact behaviour proved."
  },
  {
   "property": "C20",
   "status": "partial",
   "theorems": [
    "Javatools.C20_exact",
    "Javatools.C20_listing",
    "Javatools.C20_full_fails",
    "Javatools.C20_pretty_const_partial",
    "Javatools.C20_pretty_constants_partial"
   ],
   "note": "Full statement C20_full is refuted: tag 17 (Dynamic) unpacks but raises on display. Proved for every other tag. C20_exact and C20_listing say exactly which constants and pools can be shown."
  },
  {
   "property": "C21",
   "status": "proved",
   "theorems": [
    "Javatools.C21_typeseq_inverts_concat",
    "Javatools.C21_concat_injective"
   ],
   "note": "All descriptor sequences, any array depth."
  },
  {
   "property": "C22",
   "status": "proved",
   "theorems": [
    "Javatools.C22_terminates",
    "Javatools.C22_loses_nothing",
    "Javatools.C22_loses_nothing_without_dot",
    "Javatools.C22_exceptions"
   ],
   "note": "All strings; the set of possible exceptions is also given."
  },
  {
   "property": "C23",
   "status": "proved",
   "theorems": [
    "Javatools.C23_method_accessors",
    "Javatools.C23_field_accessors",
    "Javatools.C23_paren_in_class_name_breaks"
   ],
   "note": "Class names without ')' or ';' (valid Java names); C23_paren_in_class_name_breaks shows the hypothesis is needed."
  },
  {
   "property": "C24",
   "status": "proved",
   "theorems": [
    "Javatools.C24_method_identifiers",
    "Javatools.C24_field_identifiers"
   ],
   "note": "Stated as iff, for Java member and class names."
  },
  {
   "property": "C25",
   "status": "proved",
   "theorems": [
    "Javatools.C25_pretty_is_java",
    "Javatools.C25_pretty_void_and_args",
    "Javatools.C25_pretty_injective"
   ],
   "note": "Injectivity for Java class names that are not primitive keywords."
  },
  {
   "property": "C26",
   "status": "proved",
   "theorems": [
    "Javatools.C26_history_independent",
    "Javatools.C26_requires_not_provided",
    "Javatools.C26_public_subset_private",
    "Javatools.C26_ignored_exactly",
    "Javatools.C26_requires_complete",
    "Javatools.C26_symbol_of_method",
    "Javatools.C26_provides_content"
   ],
   "note": "glob (fnmatch) is a parameter. History independence over all call sequences."
  },
  {
   "property": "C27",
   "status": "partial",
   "theorems": [
    "Javatools.C27_exact",
    "Javatools.C27_full_fails",
    "Javatools.C27_disassemble_assemble",
    "Javatools.C27_disassemble_assemble_partial"
   ],
   "note": "The full statement is refuted (negative bipush). The exact report is proved for every valid sequence; the full statement for sequences without negative bipush. C27_exact: the full statement holds for a program if and only if no bipush has a negative operand."
  },
  {
   "property": "C28",
   "status": "proved",
   "theorems": [
    "Javatools.C28_covers_or_raises",
    "Javatools.C28_success_tiles",
    "Javatools.C28_terminates",
    "Javatools.C28_offsets"
   ],
   "note": " Proved in full."
  },
  {
   "property": "C29",
   "status": "partial",
   "theorems": [
    "Javatools.C29_exact",
    "Javatools.C29_registers",
    "Javatools.C29_opcodes",
    "Javatools.C29_unknown",
    "Javatools.C29_code_of_name",
    "Javatools.C29_name_of_code",
    "Javatools.C29_names_distinct",
    "Javatools.C29_ignores_case",
    "Javatools.C29_const_multianewarray",
    "Javatools.C29_const_full_fails",
    "Javatools.C29_const_partial",
    "Javatools.C29_const_variable",
    "Javatools.C29_const_first",
    "Javatools.C29_mnemonics"
   ],
   "note": "Constant flag refuted for multianewarray and proved for all other opcodes; everything else proved, str.lower assumed only on ASCII. C29_exact: the flag is right for exactly the opcodes other than multianewarray."
  },
  {
   "property": "C30",
   "status": "partial",
   "theorems": [
    "Javatools.C30_exact",
    "Javatools.C30_full_fails",
    "Javatools.C30_jvm_values_partial",
    "Javatools.C30_bipush_unsigned",
    "Javatools.C30_value_unique"
   ],
   "note": "Refuted for bipush (reported unsigned); proved for every other opcode on all byte strings. C30_exact: the full statement holds for an instruction unless it is a bipush with an operand over 127."
  },
  {
   "property": "C31",
   "status": "partial",
   "theorems": [
    "Javatools.C31_full_fails",
    "Javatools.C31_line_lookup_partial",
    "Javatools.C31_line_unique",
    "Javatools.C31_exact"
   ],
   "note": "Fails for tables not sorted by offset (the loop stops at the first later entry): C31_full_fails; C31_exact says what any table gives, C31_line_lookup_partial covers every sorted table."
  },
  {
   "property": "C32",
   "status": "partial",
   "theorems": [
    "Javatools.C32_exact",
    "Javatools.C32_full_fails",
    "Javatools.C32_grouping_partial",
    "Javatools.C32_no_table",
    "Javatools.C32_iter_code_by_lines",
    "Javatools.C32_linenumbertable",
    "Javatools.C32_relative"
   ],
   "note": "Fails for code without a LineNumberTable, yielded as one (possibly empty) group labelled line 1: C32_full_fails, C32_no_table. C32_grouping_partial covers every non-empty table. C32_exact: the full statement holds for a table if and only if it has an entry."
  },
  {
   "property": "C33",
   "status": "partial",
   "theorems": [
    "Javatools.C33_full_fails",
    "Javatools.C33_exact",
    "Javatools.C33_merge_code_partial",
    "Javatools.C33_only_groups"
   ],
   "note": "Fails when a line is visited twice: the dict keeps the last group (C33_full_fails, C33_exact). C33_merge_code_partial covers methods where no line recurs."
  },
  {
   "property": "C34",
   "status": "partial",
   "theorems": [
    "Javatools.C34_full_fails",
    "Javatools.C34_exact",
    "Javatools.C34_merge_constants_partial",
    "Javatools.C34_all_indices_partial"
   ],
   "note": "Fails when the pool sizes differ: the last common index is listed twice (C34_full_fails, C34_exact). The partial theorems cover equal sizes, and order and completeness for any sizes."
  },
  {
   "property": "C35",
   "status": "proved",
   "theorems": [
    "Javatools.Change.C35_changed_iff_leaf",
    "Javatools.Change.C35_ignored_iff",
    "Javatools.Change.C35_ignored_override",
    "Javatools.Change.C35_exit_status",
    "Javatools.Change.C35_exit_leaves"
   ],
   "note": "Composites with an overridden is_ignored or a check that skips the children are covered by C35_ignored_override and by Differs; C35_exit_leaves is for trees of plain composites."
  },
  {
   "property": "C36",
   "status": "proved",
   "theorems": [
    "Javatools.Change.C36_squash",
    "Javatools.Change.C36_squash_default",
    "Javatools.Change.C36_squash_twice",
    "Javatools.Change.C36_squash_children"
   ],
   "note": "Overridden descriptions are assumed non-empty, as every one in the project is."
  },
  {
   "property": "C37",
   "status": "proved",
   "theorems": [
    "Javatools.C37_exact",
    "Javatools.C37_stable",
    "Javatools.C37_permutation",
    "Javatools.C37_order",
    "Javatools.C37_contiguous"
   ],
   "note": " Proved in full."
  },
  {
   "property": "C38",
   "status": "proved",
   "theorems": [
    "Javatools.Change.C38_text_report",
    "Javatools.Change.C38_indent_ascii",
    "Javatools.Change.C38_json_report"
   ],
   "note": "JSON: the rendered old/new data of a leaf are not modelled; the root is always reported."
  },
  {
   "property": "C39",
   "status": "partial",
   "theorems": [
    "Javatools.C39_self_partial",
    "Javatools.C39_readable_partial",
    "Javatools.C39_twoFields_status",
    "Javatools.C39_nan_status",
    "Javatools.C39_full_fails",
    "Javatools.C39_exact"
   ],
   "note": "False as stated: two fields with the same name and different types, or a not-a-number constant, make a class differ from itself (C39_full_fails, C39_nan_status). Proved without bounds for pools without not-a-number and distinct member identifiers: the comparison raises or finds nothing; for readable classes it completes with status 0. C39_exact: for a readable class nothing is found if and only if the pool holds no not-a-number and no two fields and no two methods have the same identifier."
  },
  {
   "property": "C40",
   "status": "partial",
   "theorems": [
    "Javatools.C40_exact",
    "Javatools.C40_same_constants_partial",
    "Javatools.C40_renumbering_partial",
    "Javatools.C40_multianewarray_reported",
    "Javatools.C40_full_fails",
    "Javatools.C40_dynamic_raises"
   ],
   "note": "Relation between two classes up to indices (ClassRel over parsed attribute encodings and instruction lists, not over model helpers). Full statement C40_full is false: multianewarray's operand is compared as a number (C40_full_fails, C40_multianewarray_reported) and a Dynamic constant makes the comparison raise (C40_dynamic_raises). Proved for all renumberings that keep multianewarray operands in place. C40_exact: for renumberings that leave multianewarray operands in place the exit status is 0 exactly when the pools are equal, or the pool is ignored and neither pool holds a Dynamic constant."
  },
  {
   "property": "C41",
   "status": "proved",
   "theorems": [
    "Javatools.C41_exact",
    "Javatools.C41_members",
    "Javatools.C41_collected"
   ],
   "note": "Exact list of reported members for distinct identifiers; the identifier functions are arbitrary, then instantiated to get_identifier by C41_collected."
  },
  {
   "property": "C42",
   "status": "partial",
   "theorems": [
    "Javatools.C42_values_differ",
    "Javatools.C42_leaf",
    "Javatools.C42_leaf_exact",
    "Javatools.C42_code_partial",
    "Javatools.C42_same_kind_partial",
    "Javatools.C42_class_status",
    "Javatools.C42_completes",
    "Javatools.C42_full_fails",
    "Javatools.C42_missed"
   ],
   "note": "C42_full (every different typed constant is reported) is false: equal after dereferencing and == are +0.0/-0.0, an int and a float of the same value, a String and a Class of the same text, and multianewarray's index is compared as a number (C42_full_fails, C42_missed). Proved: C42_code_partial for constants whose values differ under ==, C42_same_kind_partial for constants of the same kind (bit patterns, denotations) other than zeros and method handles that differ only in the referenced kind; the leaf exactly (C42_leaf_exact), completion without exception (C42_completes), and that the class comparison then exits with 1 for every option setting (C42_class_status)."
  },
  {
   "property": "C43",
   "status": "partial",
   "theorems": [
    "Javatools.C43_exact",
    "Javatools.C43_options_partial",
    "Javatools.C43_other_options",
    "Javatools.C43_platform_witness",
    "Javatools.C43_full_fails",
    "Javatools.C43_added_witness",
    "Javatools.C43_parsed",
    "Javatools.C43_comma_partial",
    "Javatools.C43_comma_full_fails",
    "Javatools.C43_option_names"
   ],
   "note": "C43_exact gives the exit status exactly: 1 iff a compared leaf differs whose kind the table 'actual' does not suppress, for all options and classes. The intended table is false (C43_full_fails): ClassPlatformChange.is_ignored tests ignore_version_up/down, so the platform options do nothing, and ignore_added is never read (C43_added_witness). C43_options_partial: the intended table holds when ignore_added is unset and the platform options equal the version options. Comma lists: C43_comma_full_fails (--ignore lines/version/platform do not set what --ignore-lines etc. set), C43_comma_partial for all other names with arbitrary white space; C43_parsed: an attribute is set iff some option sets it."
  },
  {
   "property": "C44",
   "status": "proved",
   "theorems": [
    "Javatools.C44_item",
    "Javatools.C44_refused",
    "Javatools.C44_section",
    "Javatools.C44_manifest",
    "Javatools.C44_written"
   ],
   "note": "Lines are defined on the bytes (ShortLines: any piece between LFs, terminator included). C44_refused is exact; C44_written gives exactly the pairs that can be written (an empty value raises TypeError)."
  },
  {
   "property": "C45",
   "status": "partial",
   "theorems": [
    "Javatools.C45_partial",
    "Javatools.C45_ascii_partial",
    "Javatools.C45_empty_value",
    "Javatools.C45_line_break",
    "Javatools.C45_broken_character",
    "Javatools.C45_full_fails",
    "Javatools.C45_exact"
   ],
   "note": "C45_full is false (C45_full_fails): an empty value raises TypeError in store, U+0085/U+2028 and similar characters cut values (C45_line_break), a multi-byte character at a fold is lost (C45_broken_character). C45_partial: every manifest without these three; C45_ascii_partial: every legal manifest whose values are non-empty printable ASCII. Sections come back in the order of their serialised bytes. C45_exact says exactly which legal manifests survive: those whose values are not empty, have no line break and can be folded."
  },
  {
   "property": "C46",
   "status": "proved",
   "theorems": [
    "Javatools.C46_sections",
    "Javatools.C46_manifests",
    "Javatools.C46_digest",
    "Javatools.C46_digest_manifest"
   ],
   "note": "For sections and manifests as produced by parsing, both line separators; digests are an arbitrary function and the conclusion is equality or an explicit collision."
  },
  {
   "property": "C47",
   "status": "partial",
   "theorems": [
    "Javatools.C47_exact",
    "Javatools.C47_partial",
    "Javatools.C47_full_fails",
    "Javatools.C47_linesep"
   ],
   "note": "C47_full is false for empty or blank text (StopIteration, C47_full_fails); C47_exact characterises success and each exception for all byte strings, C47_partial is the claim for text with a non-blank line."
  },
  {
   "property": "C48",
   "status": "partial",
   "theorems": [
    "Javatools.C48_exact",
    "Javatools.C48_partial",
    "Javatools.C48_supported",
    "Javatools.C48_accepts",
    "Javatools.C48_full_fails"
   ],
   "note": "C48_full is false: rstrip strips a character set, so Test-Digest is not tried as Test (C48_full_fails). C48_exact says what is tried; C48_supported: the supported algorithms are always tried; C48_partial: the claim for names not ending in a character of the suffix."
  },
  {
   "property": "C49",
   "status": "partial",
   "theorems": [
    "Javatools.C49_read",
    "Javatools.C49_partial",
    "Javatools.C49_full_fails",
    "Javatools.C49_exact"
   ],
   "note": "C49_read: for every archive, with the content that reading by name gives; C49_partial: all entries, if no covered name occurs twice. Full fails: an entry hidden by a later one of the same name is not checked. C49_exact says exactly which archives verify, given that mapping to capitals twice is mapping once."
  },
  {
   "property": "C50",
   "status": "partial",
   "theorems": [
    "Javatools.C50_partial",
    "Javatools.C50_full_fails",
    "Javatools.C50_exact",
    "Javatools.C50_sorted_partial"
   ],
   "note": "C50_partial covers free aliases without slash/NUL, names without line breaks, no characters broken at fold points, and kept sections with a digest of the algorithm. Full fails: unsorted manifest with directory sections (the whole-manifest digest is taken in dict order but written sorted). C50_exact: under the conditions on alias, names and folding of C50_partial, the signed archive is accepted if and only if the stored manifest has the digest of the sections in original order, or each kept section has a digest attribute of the chosen algorithm before any of an unsupported one; C50_sorted_partial: always, if the sections are in order already."
  },
  {
   "property": "C51",
   "status": "partial",
   "theorems": [
    "Javatools.C51_stale_partial",
    "Javatools.C51_partial",
    "Javatools.C51_full_fails"
   ],
   "note": "Untampered: same content or a digest collision or a forged signature. C51_partial needs every covered manifest section of the original to belong to an entry, and recordable names. Full fails: a section for an absent entry lets that entry be added. C51_stale_partial: without the condition on the sections of the manifest, every entry is either unchanged or vouched for by a stale section of the original manifest; C51_partial is a corollary."
  },
  {
   "property": "C52",
   "status": "partial",
   "theorems": [
    "Javatools.C52_old_signature",
    "Javatools.C52_full_fails",
    "Javatools.C52_partial"
   ],
   "note": "Full fails (another key). C52_old_signature: exact behaviour, the old signature file is the one read. C52_partial: same key, certificate, digest and the name given."
  },
  {
   "property": "C53",
   "status": "partial",
   "theorems": [
    "Javatools.C53_partial",
    "Javatools.C53_location",
    "Javatools.C53_full_fails",
    "Javatools.C53_exact"
   ],
   "note": "C53_full is false: 'META-INF/x.ſf' is exempt because upper() maps ſ to S (C53_full_fails). C53_partial: the claim for ASCII names; C53_location for all names. C53_exact says exactly which names need no verified section."
  },
  {
   "property": "C54",
   "status": "proved",
   "theorems": [
    "Javatools.C54_alias",
    "Javatools.C54_no_sf",
    "Javatools.C54_not_chosen",
    "Javatools.C54_no_block",
    "Javatools.C54_used",
    "Javatools.C54_accepts"
   ],
   "note": "Specification Chosen/BlockFor; all outcomes of verify described."
  },
  {
   "property": "C55",
   "status": "partial",
   "theorems": [
    "Javatools.C55_exact",
    "Javatools.C55_partial",
    "Javatools.C55_mixed",
    "Javatools.C55_binary",
    "Javatools.C55_exploded",
    "Javatools.C55_full_fails"
   ],
   "note": "Proved for two archive files unless both hold an entry with the empty name. False in general: exploded archives are read as text, so a file equal to the entry of an archive file counts as changed (C55_mixed) and comparing a file that is not UTF-8 with itself raises UnicodeDecodeError (C55_binary). C55_exact: for two archive files the property holds if and only if not both have an entry with the empty name."
  },
  {
   "property": "C56",
   "status": "partial",
   "theorems": [
    "Javatools.C56_exact",
    "Javatools.C56_partial",
    "Javatools.C56_raises",
    "Javatools.C56_exploded",
    "Javatools.C56_full_fails"
   ],
   "note": "False: compare() returns a generator that runs after the archives are closed. Proved when no common entry agrees in size and CRC; otherwise it always ends with ValueError (C56_raises), and with AttributeError for exploded archives (C56_exploded). C56_exact says for exactly which archive files the two ways to compare agree."
  },
  {
   "property": "C57",
   "status": "proved",
   "theorems": [
    "Javatools.C57_chunks",
    "Javatools.C57_chunk_size",
    "Javatools.C57_crc",
    "Javatools.C57_zero",
    "Javatools.C57_digest",
    "Javatools.C57_file_digest"
   ],
   "note": "For every chunk size except 0, where file_crc32 is always 0 (C57_zero). digest_chunks is proved for every algorithm whose update can be split."
  },
  {
   "property": "C58",
   "status": "partial",
   "theorems": [
    "Javatools.C58_exact",
    "Javatools.C58_partial",
    "Javatools.C58_empty_name",
    "Javatools.C58_full_fails",
    "Javatools.C58_exploded",
    "Javatools.C58_zip_info"
   ],
   "note": "Proved unless an entry has the empty name, which raises IndexError (C58_empty_name). cli_jar_zip_info divides by zero exactly when the uncompressed size is 0 (C58_zip_info). C58_exact: the full statement holds for an archive if and only if no entry has the empty name."
  },
  {
   "property": "C59",
   "status": "partial",
   "theorems": [
    "Javatools.C59_sound",
    "Javatools.C59_subdirs",
    "Javatools.C59_partial",
    "Javatools.C59_clash",
    "Javatools.C59_shallow",
    "Javatools.C59_full_fails",
    "Javatools.C59_collect",
    "Javatools.C59_exact"
   ],
   "note": "The events that are yielded are always right and come once each (C59_sound, files of the same size and time count as the same). Complete for trees without a file/directory clash and with at most one common subdirectory per directory; two or more end with TypeError (C59_subdirs), clashes are not reported (C59_clash), changed files of the same size and time are missed (C59_shallow). C59_exact says for exactly which trees the comparison is right."
  },
  {
   "property": "C60",
   "status": "partial",
   "theorems": [
    "Javatools.C60_partial",
    "Javatools.C60_deep",
    "Javatools.C60_full_fails",
    "Javatools.C60_exact"
   ],
   "note": "Proved for destinations in which the directories with files two or more levels down exist already; otherwise copydir always raises (C60_deep). C60_exact: for a new destination the full statement holds if and only if no file is more than one directory down."
  },
  {
   "property": "C61",
   "status": "proved",
   "theorems": [
    "Javatools.C61_fnmatch",
    "Javatools.C61_fnmatches",
    "Javatools.C61_monotone",
    "Javatools.C61_order",
    "Javatools.C61_star_suffix"
   ],
   "note": "fnmatch.translate and the regular expression search are modelled; shell glob rules are specified as an inductive relation; POSIX (normcase is the identity)"
  },
  {
   "property": "C62",
   "status": "partial",
   "theorems": [
    "Javatools.C62_outcome",
    "Javatools.C62_at_most_once",
    "Javatools.C62_progress",
    "Javatools.C62_finite",
    "Javatools.C62_ends_partial",
    "Javatools.C62_failed",
    "Javatools.C62_hangs",
    "Javatools.C62_negative",
    "Javatools.C62_full_fails",
    "Javatools.C62_exact"
   ],
   "note": "The worker processes and queues are a transition system (Model/DistMp.lean). Proved for every schedule and number of workers: a parallel check that ends has the children and flag of the sequential check and ran each sub-report exactly once (C62_outcome); no sub-report is ever run twice; every run is finite; if the sequential check succeeds and there is at least one worker, the parallel check cannot get stuck and ends with the sequential outcome (C62_ends_partial). The full statement fails (C62_full_fails): a sub-report that raises makes the main process wait forever (C62_hangs), as does a negative --processes (C62_negative). C62_exact: for exactly which checks every schedule ends with the result of the sequential check."
  },
  {
   "property": "C63",
   "status": "partial",
   "theorems": [
    "Javatools.C63_other_lost",
    "Javatools.C63_class",
    "Javatools.C63_manifest",
    "Javatools.C63_jar",
    "Javatools.C63_full_fails",
    "Javatools.C63_shallow",
    "Javatools.C63_one_sided_partial",
    "Javatools.C63_text_partial",
    "Javatools.C63_jar_partial",
    "Javatools.C63_exact"
   ],
   "note": "Trees, readers of JARs and classes and all kinds of files are modelled (Model/DistDiff.lean). Exact: a differing plain file is lost by check (C63_other_lost, so C63_full is false), in shallow mode nothing that differs is reported (C63_shallow); a file on one side only always is (C63_one_sided_partial), a differing text or JAR is reported exactly as its own comparison says (C63_text_partial, C63_jar_partial, C63_class, C63_manifest). C63_exact: a comparison that ends has status 1 exactly if some file that no pattern matches counts (CountsFile, by kind of file)."
  },
  {
   "property": "C64",
   "status": "partial",
   "theorems": [
    "Javatools.C64_partial",
    "Javatools.C64_full_fails",
    "Javatools.C64_exact"
   ],
   "note": "Proved for files that are UTF-8 (C64_partial), for every content: with the option a differing text is ignored exactly if the files agree line by line up to trailing white space, blank lines at the end counting as such; without it every difference of the lines is reported. C64_full is false: files that differ in line endings only are never reported. C64_exact: for exactly the texts that do not differ in the ends of their lines alone."
  },
  {
   "property": "C65",
   "status": "proved",
   "theorems": [
    "Javatools.C65_requires",
    "Javatools.C65_provides",
    "Javatools.C65_returns",
    "Javatools.C65_exploded"
   ],
   "note": "JarInfo with its caches and close is modelled (Model/Info.lean); for every archive, history of calls and ignore list: the keys of get_requires are the symbols some class needs and none has, publicly or privately, and each value lists exactly the classes that need it, once each if names are not repeated; the same for get_provides with public symbols; both return exactly if every class can be read (C65_returns). From an exploded directory with a class both raise (C65_exploded)."
  },
  {
   "property": "C66",
   "status": "partial",
   "theorems": [
    "Javatools.C66_exact",
    "Javatools.C66_requires_partial",
    "Javatools.C66_provides",
    "Javatools.C66_returns",
    "Javatools.C66_archive",
    "Javatools.C66_full_fails"
   ],
   "note": "For distributions in a directory, any history of calls: keys and values are exact (C66_requires_partial, C66_provides, C66_returns). C66_full is false: for a distribution in an archive the entries are looked up below the archive instead of the temporary directory and both accessors raise (C66_archive). Private members of classes in JARs do not count as provided at this level, those of other classes do; this is how DistOffers is stated. C66_exact: it holds exactly when the distribution is a directory or has no JAR and no class file."
  },
  {
   "property": "C67",
   "status": "proved",
   "theorems": [
    "Javatools.C67_entry",
    "Javatools.C67_collected",
    "Javatools.C67_raises",
    "Javatools.C67_partition",
    "Javatools.C67_checked_simple",
    "Javatools.C67_checked_raw",
    "Javatools.C67_checked_class",
    "Javatools.C67_checked_manifest"
   ],
   "note": "Class, entry and kind of every change object, for all names and events; partition for zip archives; after check: added and removed stay changes, same stay unchanged, plain files and signature blocks changed iff bytes differ, classes and manifests iff their comparison says so."
  },
  {
   "property": "C68",
   "status": "proved",
   "theorems": [
    "Javatools.C68_report",
    "Javatools.C68_ignored",
    "Javatools.C68_signature",
    "Javatools.C68_parsed",
    "Javatools.C68_text",
    "Javatools.C68_reordered"
   ],
   "note": "Manifests with lawful dictionaries (C68_parsed: every manifest that was read). The order of attributes counts as a difference (C68_reordered)."
  },
  {
   "property": "C69",
   "status": "proved",
   "theorems": [
    "Javatools.C69_section",
    "Javatools.C69_main",
    "Javatools.C69_names",
    "Javatools.C69_keys",
    "Javatools.C69_primary",
    "Javatools.C69_keep"
   ],
   "note": "The history of operations is a list of MOp values; the expected content is computed from the log of assignments, independently of the model."
  },
  {
   "property": "C70",
   "status": "partial",
   "theorems": [
    "Javatools.C70_exact",
    "Javatools.C70_right",
    "Javatools.C70_full_fails",
    "Javatools.C70_partial",
    "Javatools.C70_spelling"
   ],
   "note": "False: keys are compared exactly. Holds when differing attributes are spelled like the keys. C70_exact: exactly which changes are ignored; C70_right: exactly when this is the intended answer."
  },
  {
   "property": "C71",
   "status": "proved",
   "theorems": [
    "Javatools.C71_reports"
   ],
   "note": "Equality of the two status functions, exceptions included."
  },
  {
   "property": "C72",
   "status": "proved",
   "theorems": [
    "Javatools.C72_same"
   ],
   "note": "Zip archives with correct sizes and check sums."
  },
  {
   "property": "C73",
   "status": "proved",
   "theorems": [
    "Javatools.C73_status",
    "Javatools.C73_one_sided",
    "Javatools.C73_content",
    "Javatools.C73_covered",
    "Javatools.C73_exact"
   ],
   "note": "Zip archives with correct sizes and check sums; status given that no exception is raised. C73_exact: the status is 1 if and only if an entry counts that no option covers, with what counts said for each kind of entry."
  },
  {
   "property": "C74",
   "status": "proved",
   "theorems": [
    "Javatools.C74_entry",
    "Javatools.C74_collected",
    "Javatools.C74_raises",
    "Javatools.C74_files",
    "Javatools.C74_status",
    "Javatools.C74_checked_one_sided"
   ],
   "note": "One object per event with its class (C74_entry, C74_collected), when the collection raises (C74_raises), which files there are (C74_files), the status (C74_status)."
  },
  {
   "property": "C75",
   "status": "proved",
   "theorems": [
    "Javatools.C75_reports",
    "Javatools.C75_parallel"
   ],
   "note": "distReportStatus = distDiffStatus as values, exceptions included (C75_reports); with workers for every schedule that ends, through C62_outcome (C75_parallel)."
  },
  {
   "property": "C76",
   "status": "partial",
   "theorems": [
    "Javatools.C76_partial",
    "Javatools.C76_subdirs",
    "Javatools.C76_undecodable",
    "Javatools.C76_full_fails",
    "Javatools.C76_exact"
   ],
   "note": "C76_partial: trees with the same files, at most one common subdirectory in each directory and text files that are UTF-8. C76_full is false: two common subdirectories raise TypeError (C76_subdirs) and identical texts that are not UTF-8 raise UnicodeDecodeError (C76_undecodable). C76_exact says for exactly which distributions with the same files the status is 0."
  },
  {
   "property": "C77",
   "status": "partial",
   "theorems": [
    "Javatools.C77_name",
    "Javatools.C77_partial",
    "Javatools.C77_star",
    "Javatools.C77_full_fails",
    "Javatools.C77_exact"
   ],
   "note": "False for changed files at the top of the distribution: their name is matched as ./name (C77_full_fails). Proved for all others (C77_partial), and for all if the pattern begins with a star (C77_star). C77_exact: a file that counts (C63_exact) is ignored if and only if a pattern matches the name under which it is reported."
  },
  {
   "property": "C78",
   "status": "proved",
   "theorems": [
    "Javatools.C78_printed"
   ],
   "note": "printedSymbols is a permutation of the keys of the JSON map and a sublist of the sorted keys."
  },
  {
   "property": "C79",
   "status": "proved",
   "theorems": [
    "Javatools.C79_accepts_exactly",
    "Javatools.C79_accepts_exactly_stream",
    "Javatools.C79_refused"
   ],
   "note": "Both directions: success on data iff the data starts with the encoding of a raw class structure, for bytes and streams. Raw: Utf8 entries are bytes (their decoding is C11), references unchecked except attribute names, a trailing long may overhang the pool."
  },
  {
   "property": "C80",
   "status": "proved",
   "theorems": [
    "Javatools.C80_pretty_signature",
    "Javatools.C80_module",
    "Javatools.C80_code",
    "Javatools.C80_line_numbers",
    "Javatools.C80_local_variables",
    "Javatools.C80_inner_classes",
    "Javatools.C80_exceptions",
    "Javatools.C80_constant_value",
    "Javatools.C80_named",
    "Javatools.C80_enclosing_method"
   ],
   "note": "Iff for code, line numbers, local variables, inner classes, exceptions, constant values, signatures/source files; enclosing methods for well-typed indices."
  },
  {
   "property": "C81",
   "status": "partial",
   "theorems": [
    "Javatools.C81_full_fails",
    "Javatools.C81_bytes_and_str_refused",
    "Javatools.C81_tuple_partial",
    "Javatools.C81_method_accepts_all_forms",
    "Javatools.C81_exact"
   ],
   "note": "False for bytes and str: unpack_class compares the argument with a tuple, so every class is refused (C81_bytes_and_str_refused). Tuples resume exactly (C81_tuple_partial); the method JavaClassInfo.unpack accepts all three forms. C81_exact."
  },
  {
   "property": "C82",
   "status": "partial",
   "theorems": [
    "Javatools.C82_exceptions",
    "Javatools.C82_full_fails",
    "Javatools.C82_truncated_partial"
   ],
   "note": "False: UnknownConstantPoolTagException, IndexError and RecursionError escape (C82_full_fails). Proved: only those five kinds are ever raised (C82_exceptions); truncated class files raise UnpackException only."
  },
  {
   "property": "C83",
   "status": "partial",
   "theorems": [
    "Javatools.C83_pretty_deref_partial",
    "Javatools.C83_others",
    "Javatools.C83_full_fails",
    "Javatools.C83_exact"
   ],
   "note": "False for MethodType (TypeError), Module/Package (AttributeError), MethodHandle (unknown tag): C83_others. All other kinds proved; class names in method descriptors free of ')' and ';' (see C21). C83_exact: in a pool with proper types, exactly the constants that are no method handle, method type, module or package have a text."
  },
  {
   "property": "C84",
   "status": "partial",
   "theorems": [
    "Javatools.C84_equality_partial",
    "Javatools.C84_info_partial",
    "Javatools.C84_str_always_fails",
    "Javatools.C84_full_fails"
   ],
   "note": "Equality and info() proved; str() always raises TypeError (C84_str_always_fails refutes the text part)."
  },
  {
   "property": "C85",
   "status": "proved",
   "theorems": [
    "Javatools.C85_created",
    "Javatools.C85_raises"
   ],
   "note": "Archives whose entries have names (an entry with the empty name raises IndexError)."
  },
  {
   "property": "C86",
   "status": "partial",
   "theorems": [
    "Javatools.C86_exact",
    "Javatools.C86_partial",
    "Javatools.C86_full_fails"
   ],
   "note": "False: other files below META-INF are never recorded but are verified. Exact for ASCII names: the failures are the entries neither exempt nor recorded."
  },
  {
   "property": "C87",
   "status": "partial",
   "theorems": [
    "Javatools.C87_exact_partial",
    "Javatools.C87_never",
    "Javatools.C87_full_fails"
   ],
   "note": "False: the base name is cut instead of the path, so the recorded name is never the relative path (C87_never) and can collide; exact theorem."
  },
  {
   "property": "C88",
   "status": "partial",
   "theorems": [
    "Javatools.C88_missing",
    "Javatools.C88_file",
    "Javatools.C88_partial",
    "Javatools.C88_full_fails"
   ],
   "note": "False: the argument string is iterated by characters. Partial: names of one character."
  },
  {
   "property": "C89",
   "status": "partial",
   "theorems": [
    "Javatools.C89_exact",
    "Javatools.C89_full_fails",
    "Javatools.C89_partial"
   ],
   "note": "False: a second --ignore always raises TypeError."
  },
  {
   "property": "C90",
   "status": "partial",
   "theorems": [
    "Javatools.C90_exact",
    "Javatools.C90_stdout",
    "Javatools.C90_full_fails",
    "Javatools.C90_partial"
   ],
   "note": "False: standard output is a text stream and always refuses bytes. Partial: a named file. C90_exact."
  },
  {
   "property": "C91",
   "status": "proved",
   "theorems": [
    "Javatools.C91_exact",
    "Javatools.C91_usage",
    "Javatools.C91_no_manifest"
   ],
   "note": "ASCII names (for others see C53); unknown digest names raise."
  },
  {
   "property": "C92",
   "status": "partial",
   "theorems": [
    "Javatools.C92_exact",
    "Javatools.C92_main",
    "Javatools.C92_partial",
    "Javatools.C92_colon",
    "Javatools.C92_full_fails",
    "Javatools.C92_lines",
    "Javatools.C92_usage"
   ],
   "note": "False for section names with a colon; exact for the others. C92_exact says for exactly which sections the answer is right."
  },
  {
   "property": "C93",
   "status": "partial",
   "theorems": [
    "Javatools.C93_exact",
    "Javatools.C93_no_effect",
    "Javatools.C93_partial",
    "Javatools.C93_full_fails"
   ],
   "note": "False: strict has no effect at all (C93_no_effect). C93_partial: no report if every entry that must match has a digest recorded. C93_exact: it holds exactly when a digest is recorded for every entry that has to match."
  },
  {
   "property": "C94",
   "status": "partial",
   "theorems": [
    "Javatools.C94_exact",
    "Javatools.C94_manifest",
    "Javatools.C94_jarutil_partial",
    "Javatools.C94_full_fails"
   ],
   "note": "manifest as stated; jarutil: false, verification is called view, so verify only shows the usage. C94_exact: of the abbreviations of verify only v is accepted."
  },
  {
   "property": "C95",
   "status": "proved",
   "theorems": [
    "Javatools.C95_exact",
    "Javatools.C95_missing",
    "Javatools.C95_manifest"
   ],
   "note": "Paths without . and .. components, absolute paths excluded."
  },
  {
   "property": "C96",
   "status": "proved",
   "theorems": [
    "Javatools.C96_signed",
    "Javatools.C96_unsigned",
    "Javatools.C96_no_manifest",
    "Javatools.C96_key"
   ],
   "note": "Signature scheme abstract."
  },
  {
   "property": "C97",
   "status": "partial",
   "theorems": [
    "Javatools.C97_exact",
    "Javatools.C97_status",
    "Javatools.C97_zero",
    "Javatools.C97_usage",
    "Javatools.C97_partial",
    "Javatools.C97_full_fails"
   ],
   "note": "False: exceptions that are not VerificationErrors escape, e.g. MissingManifestError (C97_full_fails, C97_status). C97_zero (iff) and C97_usage are proved for all archives; C97_partial: archives with a readable manifest and readable signature files with known algorithms. C97_exact says for exactly which archives the command ends with a status."
  },
  {
   "property": "C98",
   "status": "partial",
   "theorems": [
    "Javatools.C98_visible",
    "Javatools.C98_partial",
    "Javatools.C98_header",
    "Javatools.C98_full_fails",
    "Javatools.C98_exact"
   ],
   "note": "Model/ClassInfoCli mirrors classinfo.py branch by branch; output is text × optional exception. Visibility by bits of the access flags; the full text of the terse listing given by terseText. False in general: the annotations of a method are printed even in the terse listing (C98_full_fails); exact if no shown method has the attribute. C98_header: with --header the output is exactly the source line, the declaration and the header; no member is shown. C98_exact: the listing is terse exactly when every shown method has annotations that decode to none."
  },
  {
   "property": "C99",
   "status": "proved",
   "theorems": [
    "Javatools.C99_exact",
    "Javatools.C99_faithful",
    "Javatools.C99_injective",
    "Javatools.C99_numbers"
   ],
   "note": "C99_exact composes C27 (disassembler inverts the assembler) and C29 (mnemonics) with the text of operands; C99_faithful and C99_injective: equal listings come from equal instructions, by unique readability of decimal numbers, tabs and brackets. C99_numbers: numbers are decimal with a sign (natText is Nat.toDigits 10)."
  },
  {
   "property": "C100",
   "status": "partial",
   "theorems": [
    "Javatools.C100_fails",
    "Javatools.C100_partial",
    "Javatools.C100_full_fails",
    "Javatools.C100_exact"
   ],
   "note": "False: the options are passed where the member is expected, so any member that is to be shown raises AttributeError (C100_fails); the report is right if no member is shown (C100_partial). C100_exact says for exactly which classes there is a document."
  },
  {
   "property": "C101",
   "status": "partial",
   "theorems": [
    "Javatools.C101_exact",
    "Javatools.C101_partial",
    "Javatools.C101_full_fails"
   ],
   "note": "False for every real class file: the two numbers are exchanged (C101_exact); right exactly if they are equal (C101_partial, an equivalence)."
  },
  {
   "property": "C102",
   "status": "partial",
   "theorems": [
    "Javatools.C102_exact",
    "Javatools.C102_partial",
    "Javatools.C102_dynamic",
    "Javatools.C102_full_fails",
    "Javatools.C102_float",
    "Javatools.C102_float_special"
   ],
   "note": "C102_exact gives the listing; a reader of repr escapes shows that strings can be read back; false for floating point numbers, which are rounded to six decimals (C102_full_fails); dynamic constants raise (C102_dynamic). C102_float: finite floats have six decimals, rounded to nearest even; C102_float_special: nan and infinities."
  },
  {
   "property": "C103",
   "status": "proved",
   "theorems": [
    "Javatools.C103_method",
    "Javatools.C103_field",
    "Javatools.C103_method_injective",
    "Javatools.C103_field_injective"
   ],
   "note": "C103_method and C103_field give the text; the injectivity theorems take it apart at the parenthesis, the blanks and the commas. Keywords are those of C15."
  },
  {
   "property": "C104",
   "status": "partial",
   "theorems": [
    "Javatools.C104_exact",
    "Javatools.C104_partial",
    "Javatools.C104_full_fails"
   ],
   "note": "C104_exact for any class; the claim fails for a class without keywords (leading blank) and for java.lang.Object (\"extends\" without a name)."
  },
  {
   "property": "C105",
   "status": "partial",
   "theorems": [
    "Javatools.C105_exact",
    "Javatools.C105_partial",
    "Javatools.C105_shown",
    "Javatools.C105_full_fails"
   ],
   "note": "False: the index is never incremented (C105_exact); right exactly for at most one annotation (C105_partial, an equivalence). C105_shown: the visible annotations below a heading; nothing without any."
  },
  {
   "property": "C106",
   "status": "proved",
   "theorems": [
    "Javatools.C106_provides",
    "Javatools.C106_requires"
   ],
   "note": "Sortedness of sorted() is proved against the lexicographic order of lists; the set of symbols is that of get_provides / get_requires (C32-C36)."
  },
  {
   "property": "C107",
   "status": "proved",
   "theorems": [
    "Javatools.C107_all",
    "Javatools.C107_stops",
    "Javatools.C107_no_class"
   ],
   "note": "Induction over the list of files."
  },
  {
   "property": "C108",
   "status": "partial",
   "theorems": [
    "Javatools.C108_exact",
    "Javatools.C108_partial",
    "Javatools.C108_full_fails"
   ],
   "note": "False: a generator is always true, so the heading is printed for every method (C108_exact); right exactly for methods that declare exceptions."
  },
  {
   "property": "C109",
   "status": "proved",
   "theorems": [
    "Javatools.C109_lines",
    "Javatools.C109_lines_injective",
    "Javatools.C109_locals",
    "Javatools.C109_method",
    "Javatools.C109_verbose"
   ],
   "note": "Induction over the rows; injectivity by unique readability. C109_method and C109_verbose give the text of a method in the verbose listing in full: code, exceptions, line numbers and local variables."
  },
  {
   "property": "C110",
   "status": "proved",
   "theorems": [
    "Javatools.C110_formats"
   ],
   "note": "Model/Report mirrors report.py; the parts of a comma-separated list are specified by what stands before and after them; proved for all lists of options."
  },
  {
   "property": "C111",
   "status": "partial",
   "theorems": [
    "Javatools.C111_exact",
    "Javatools.C111_full_fails",
    "Javatools.C111_partial",
    "Javatools.C111_pending"
   ],
   "note": "False: setup caches the formats, and run uses the cache (C111_full_fails, C111_pending). C111_partial: every add that follows a setup follows the run or clear that ends it; no other condition on the calls. C111_exact says for exactly which sequences of calls every format is written."
  },
  {
   "property": "C112",
   "status": "partial",
   "theorems": [
    "Javatools.C112_where",
    "Javatools.C112_class",
    "Javatools.C112_full_fails",
    "Javatools.C112_partial",
    "Javatools.C112_dist",
    "Javatools.C112_exact"
   ],
   "note": "Paths are specified by the place they lead to (Spec/Paths). False for entries with .. parts or a slash in front (zip slip; C112_full_fails with a JAR); C112_where and C112_class give the file for every entry; C112_partial and C112_dist: common entries that do not go up. C112_exact: the reports stay in the report directory, whatever it is, if and only if the reported entries are relative and no initial part of them leads out of it."
  },
  {
   "property": "C113",
   "status": "partial",
   "theorems": [
    "Javatools.C113_exact",
    "Javatools.C113_full_fails",
    "Javatools.C113_directory",
    "Javatools.C113_partial",
    "Javatools.C113_dist"
   ],
   "note": "False for entries that lead to the same place, or that have a part named like a report (C113_full_fails, C113_directory). C113_partial (JARs) and C113_dist (distributions): plain entries with different places. C113_exact: for entries that are relative and do not go up, the reports on the classes of a JAR and the JAR are apart exactly when the entries lead to different places and none leads to or below a report that is written on the JAR or on a class."
  },
  {
   "property": "C114",
   "status": "proved",
   "theorems": [
    "Javatools.C114_path",
    "Javatools.C114_links"
   ],
   "note": "relpath, normpath, abspath and join are modelled and proved to lead to the right place (Proofs/Paths). C114_path for all sub-reports as paths; C114_links for sub-reports below, as the value of the attribute, followed by the rules of RFC 3986: the links consist of dots and slashes."
  },
  {
   "property": "C115",
   "status": "partial",
   "theorems": [
    "Javatools.C115_exact",
    "Javatools.C115_full_fails",
    "Javatools.C115_path",
    "Javatools.C115_partial"
   ],
   "note": "C115_path: right as a path for all entries. False as a link, because nothing is quoted or percent-encoded (C115_full_fails); C115_partial: entries without # ? % : \" &. C115_exact: of the entries that are names with slashes in between, without % and &, exactly those without #, ? and \" and without a : in the first name have a link that leads to their report."
  },
  {
   "property": "C116",
   "status": "proved",
   "theorems": [
    "Javatools.C116_shows",
    "Javatools.C116_injective",
    "Javatools.C116_inert"
   ],
   "note": "Induction over the text; htmlText decodes the references."
  },
  {
   "property": "C117",
   "status": "partial",
   "theorems": [
    "Javatools.C117_full_fails",
    "Javatools.C117_path",
    "Javatools.C117_partial",
    "Javatools.C117_unchanged",
    "Javatools.C117_exact"
   ],
   "note": "C117_path: relpath is right as a path; C117_full_fails: not percent-encoded; C117_partial: names without special characters; C117_unchanged for addresses. C117_exact: of the files whose names, from where their way leaves that of the report, have no % and &, exactly those are linked to whose such names have no #, ? and \" and, if the file is below the directory of the report, no : in the first of them."
  },
  {
   "property": "C118",
   "status": "proved",
   "theorems": [
    "Javatools.C118_once",
    "Javatools.C118_none"
   ],
   "note": "Induction over the number of reports; the copy is a parameter."
  },
  {
   "property": "C119",
   "status": "proved",
   "theorems": [
    "Javatools.C119_lists",
    "Javatools.C119_same"
   ],
   "note": "Model/JarInfoCli mirrors cli_jar_manifest_info; C119_lists states the listing by permutation and order (no sorting function in the statement), C119_same that the listing determines the attributes and the other way round. Rests on the parser keeping colons out of keys and line breaks out of values (Proofs/Manifest)."
  },
  {
   "property": "C120",
   "status": "partial",
   "theorems": [
    "Javatools.C120_exact",
    "Javatools.C120_missing",
    "Javatools.C120_never",
    "Javatools.C120_full_fails",
    "Javatools.C120_partial"
   ],
   "note": "False: load_from_jar raises MissingManifestError first, and a Manifest() is never empty (Manifest-Version), so 'Manifest not present.' is dead code (C120_never, C120_missing). Proved for JARs that have a manifest. C120_exact."
  },
  {
   "property": "C121",
   "status": "proved",
   "theorems": [
    "Javatools.C121_all",
    "Javatools.C121_unreadable",
    "Javatools.C121_broken",
    "Javatools.C121_parts",
    "Javatools.C121_files"
   ],
   "note": "Parts as functions on the JarInfo with its caches; C121_parts is an equation for all option sets, C121_all / _unreadable / _broken / _files are exact about failures."
  },
  {
   "property": "C122",
   "status": "proved",
   "theorems": [
    "Javatools.C122_provides",
    "Javatools.C122_requires",
    "Javatools.C122_unreadable",
    "Javatools.C122_json",
    "Javatools.C122_dist",
    "Javatools.C122_dist_json"
   ],
   "note": "Exact texts; the symbols are those of the specifications of C65 and C66. distinfo on archives fails for other reasons (C66)."
  },
  {
   "property": "C123",
   "status": "partial",
   "theorems": [
    "Javatools.C123_exact",
    "Javatools.C123_partial",
    "Javatools.C123_empty",
    "Javatools.C123_unnamed",
    "Javatools.C123_full_fails"
   ],
   "note": "False for archives without data (ZeroDivisionError) and with an entry of the empty name (IndexError); exact theorems for both, proved otherwise. The percentage text is a parameter. C123_exact says for exactly which archives there is a report."
  },
  {
   "property": "C124",
   "status": "partial",
   "theorems": [
    "Javatools.C124_exact",
    "Javatools.C124_dropped",
    "Javatools.C124_partial",
    "Javatools.C124_full_fails",
    "Javatools.C124_files",
    "Javatools.C124_dist"
   ],
   "note": "False: --manifest and --jar-classes are dropped by --json (C124_dropped), and distinfo accepts and drops all options of jarinfo and classinfo but the patterns (C124_dist). Proved without those options. Several files give several documents on the same stream (C124_files). C124_exact says for exactly which options and files text and JSON fail together."
  },
  {
   "property": "C125",
   "status": "proved",
   "theorems": [
    "Javatools.C125_names",
    "Javatools.C125_file",
    "Javatools.C125_dir",
    "Javatools.C125_missing",
    "Javatools.C125_totals",
    "Javatools.C125_read",
    "Javatools.C125_closed",
    "Javatools.C125_refresh"
   ],
   "note": "Model/ZipAccess.lean: FsTree (directories with links and special files), collectInfos, Exploded. The spec is FileIn/DirIn (paths through directories); by induction over the tree, with the injectivity of slashed paths for uniqueness. CRC-32 is that of C57."
  },
  {
   "property": "C126",
   "status": "partial",
   "theorems": [
    "Javatools.C126_exact",
    "Javatools.C126_plain_exact",
    "Javatools.C126_links",
    "Javatools.C126_partial",
    "Javatools.C126_absolute",
    "Javatools.C126_parent",
    "Javatools.C126_full_fails"
   ],
   "note": "False: read joins the name to the directory and opens it. C126_links is exact for plain relative paths (links are followed); C126_absolute and C126_parent say what absolute paths and .. read. C126_partial: plain paths without links. C126_exact says for exactly which texts what is read is a member of that name, C126_plain_exact for exactly which directories all that is read under plain paths is one."
  },
  {
   "property": "C127",
   "status": "partial",
   "theorems": [
    "Javatools.C127_exact",
    "Javatools.C127_other_exact",
    "Javatools.C127_archive_partial",
    "Javatools.C127_zip64",
    "Javatools.C127_other_partial",
    "Javatools.C127_view",
    "Javatools.C127_rewinds",
    "Javatools.C127_unusable",
    "Javatools.C127_bytes",
    "Javatools.C127_full_fails"
   ],
   "note": "False: bytes and str raise TypeError on Python 3, streams without tell or seek raise (C127_unusable), an archive in several parts raises BadZipFile (C127_rewinds). zipfile._EndRecData is modelled in full (CPython 3.8-3.12). Proved for seekable streams and buffers without a ZIP64 locator. C127_exact says for exactly which arguments the record of an archive is recognised, also with a locator in front that leaves no room for the record it locates; C127_other_exact the same for data without the signature."
  },
  {
   "property": "C128",
   "status": "proved",
   "theorems": [
    "Javatools.C128_closes",
    "Javatools.C128_others",
    "Javatools.C128_zip_file",
    "Javatools.C128_with_zip",
    "Javatools.C128_collect"
   ],
   "note": "withClosing and withZip give the outcome and what happened; all cases."
  },
  {
   "property": "C129",
   "status": "proved",
   "theorems": [
    "Javatools.C129_lists",
    "Javatools.C129_fresh",
    "Javatools.C129_named",
    "Javatools.C129_raises"
   ],
   "note": "By induction over the events; C129_fresh relates it to the functions of C55 and C59."
  },
  {
   "property": "C130",
   "status": "proved",
   "theorems": [
    "Javatools.C130_map",
    "Javatools.C130_specific",
    "Javatools.C130_raises",
    "Javatools.C130_package"
   ],
   "note": "Model: Model/Template (C3 linearization of any hierarchy; the 105 change classes and 26 templates of the package as tables). C130_map: which template a class has. C130_specific, C130_raises: all hierarchies in which each class is defined once, after its bases (Hier.Sound; changeClasses_sound for the package). C130_package: each change class of the package has an order and a template."
  },
  {
   "property": "C131",
   "status": "partial",
   "theorems": [
    "Javatools.C131_exact",
    "Javatools.C131_partial",
    "Javatools.C131_full_fails"
   ],
   "note": "C131_full_fails: after an exception from a template without a class, the next call gives the incomplete map. C131_exact: what a second call gives in every case. C131_partial: no difference where the first call succeeds. package_composed: with the templates of the package it does."
  },
  {
   "property": "C132",
   "status": "partial",
   "theorems": [
    "Javatools.C132_exact",
    "Javatools.C132_rows",
    "Javatools.C132_when",
    "Javatools.C132_lists",
    "Javatools.C132_partial",
    "Javatools.C132_full_fails"
   ],
   "note": "Model/JsonData.lean mirrors CodeConstantsChange.fn_pretty and simplify; the offsets are those of the model of check_impl (C42). C132_rows and C132_when say exactly what is listed and when there is data; C132_lists says it in terms of the class file. False as stated: operands that are not constants are never listed (C132_full_fails). C132_partial: an instruction that loads a constant is listed on both sides, any other on neither. C132_exact: it holds exactly when every differing instruction has a constant argument."
  },
  {
   "property": "C133",
   "status": "partial",
   "theorems": [
    "Javatools.C133_exact",
    "Javatools.C133_constants",
    "Javatools.C133_body",
    "Javatools.C133_partial",
    "Javatools.C133_full_fails"
   ],
   "note": "False as stated: pretty_deref_const raises for method types and method handles, and checks stop at the first difference (C133_full_fails). C133_constants and C133_body are exact; C133_partial: valid code whose loaded constants are of the kinds that have a text. C133_exact says for exactly which code both changes can be written."
  },
  {
   "property": "C134",
   "status": "partial",
   "theorems": [
    "Javatools.C134_together",
    "Javatools.C134_exact",
    "Javatools.C134_partial",
    "Javatools.C134_dashes",
    "Javatools.C134_full_fails"
   ],
   "note": "Model/ArgParse.lean models argparse (CPython 3.11) for parsers with one positional argument (one word, two, or at least one), and the option tables of the six tools. Spells lists the ways to give options. C134_full is false: classdiff a -q b exits with status 2. C134_exact: among well-formed options and names a command line is accepted exactly if the names are as many as the tool takes and next to each other, and then as stated (C134_partial, C134_together); C134_dashes: behind -- every word is a name and there must be as many as the tool takes."
  },
  {
   "property": "C135",
   "status": "proved",
   "theorems": [
    "Javatools.C135_files",
    "Javatools.C135_exits",
    "Javatools.C135_short",
    "Javatools.C135_defaults"
   ],
   "note": "C135_files holds for all lists of words; C135_exits gives the two possible exits, C135_short and C135_defaults that too few words, or none, always exit."
  },
  {
   "property": "C136",
   "status": "proved",
   "theorems": [
    "Javatools.C136_unique",
    "Javatools.C136_equals",
    "Javatools.C136_ambiguous"
   ],
   "note": "C136_unique and C136_equals replace an abbreviation by the option anywhere before --; C136_ambiguous refuses ambiguous ones, also as the argument of another option."
  },
  {
   "property": "C137",
   "status": "proved",
   "theorems": [
    "Javatools.C137_status",
    "Javatools.C137_attributes",
    "Javatools.C137_order"
   ],
   "note": "C137_status gives the outcome of a silent run as the exit status of the comparison (C43) with exactly the attributes set that the options set, C137_attributes and C137_order follow. Sets is a table independent of the model. What printing and reports do is a parameter, hence silent runs without reports."
  },
  {
   "property": "C138",
   "status": "proved",
   "theorems": [
    "Javatools.C138_report",
    "Javatools.C138_refused",
    "Javatools.C138_order"
   ],
   "note": "Model/InfoMain.lean: the events of the parser are folded into the namespace as argparse does. Means says what the options mean, option by option, independently of the fold; LevelOf is the last visibility option. C138_report: the output is that of classinfoCli (C98-C109) or the JSON documents with exactly these options; C138_order: two command lines with the same files and the same options print the same; C138_refused: names that are not next to each other are refused (C134)."
  },
  {
   "property": "C139",
   "status": "proved",
   "theorems": [
    "Javatools.C139_jarinfo",
    "Javatools.C139_distinfo",
    "Javatools.C139_ignored"
   ],
   "note": "C139_jarinfo and C139_distinfo as C138_report; the reports are those of C119-C124. C139_ignored: leaving out all options of jarinfo and classinfo but --json and --api-ignore makes no difference to distinfo."
  },
  {
   "property": "C140",
   "status": "proved",
   "theorems": [
    "Javatools.C140_run",
    "Javatools.C140_means",
    "Javatools.C140_nothing",
    "Javatools.C140_order",
    "Javatools.C140_status"
   ],
   "note": "Command line, namespace, reading, comparing, check, ignoring and output in one function (diffMain) for a run without --report; open() of the output is a table of exceptions; JSON as a document, not its text. C140_run against a specification of what the options mean (DiffMeans) and what a run does (RunIs); C140_means, C140_order, C140_status, C140_nothing."
  },
  {
   "property": "C141",
   "status": "partial",
   "theorems": [
    "Javatools.C141_conflict",
    "Javatools.C141_exact",
    "Javatools.C141_partial",
    "Javatools.C141_order",
    "Javatools.C141_full_fails"
   ],
   "note": "As C140, for archives and directories. False as stated: --ignore may name an option for patterns, which stores True in place of the list (C141_full_fails). C141_partial: exactly as stated if --ignore names no such option; C141_conflict and C141_exact say what happens otherwise; C141_order."
  },
  {
   "property": "C142",
   "status": "proved",
   "theorems": [
    "Javatools.C142_run",
    "Javatools.C142_same",
    "Javatools.C142_none"
   ],
   "note": "reportMain (Model/ReportMain) composes the parsed command line, the comparison, the reporter and the formats; the page templates and the failures of writing are parameters. C142_run: the three outcomes with the files that are there; C142_same: the same output and status as without --report; C142_none: a list of commas alone."
  },
  {
   "property": "C143",
   "status": "proved",
   "theorems": [
    "Javatools.C143_kept",
    "Javatools.C143_which",
    "Javatools.C143_run",
    "Javatools.C143_status"
   ],
   "note": "As C142 with the reports of the classes inside. C143_run: the files in order, each class with the text of the comparison of its two versions (ClassReports), and the printed comparison in brief (Brief); C143_which: for archive files the reported classes are those in both with different content; C143_status: the status is the one without --report. C143_kept: the reports of the first classes are written whatever happens to the later ones."
  },
  {
   "property": "C144",
   "status": "proved",
   "theorems": [
    "Javatools.C144_which",
    "Javatools.C144_run",
    "Javatools.C144_status"
   ],
   "note": "Model/DistReportMain: cli_dist_diff, DistReport with and without processes (the transition system of Model/DistMp over changes with the files written for them). C144_run: the outcome of every run; C144_which: which files have reports, for all trees; C144_status: the status without --report. With processes the files are listed report by report; runs that do not end are no runs (see C145)."
  },
  {
   "property": "C145",
   "status": "partial",
   "theorems": [
    "Javatools.C145_same",
    "Javatools.C145_raises",
    "Javatools.C145_partial",
    "Javatools.C145_hangs",
    "Javatools.C145_negative",
    "Javatools.C145_full_fails"
   ],
   "note": "The claim is false: a class that cannot be read makes every parallel run hang (C145_full_fails, C145_hangs), and so does a negative number (C145_negative). Proved: a run that raises nothing is the run without processes (C145_same); if a run raises, so does the one without (C145_raises); if no number is negative and the run without processes raises nothing, it is the only run for any number (C145_partial)."
  },
  {
   "property": "C146",
   "status": "proved",
   "theorems": [
    "Javatools.Obj.C146_stable",
    "Javatools.Obj.C146_again",
    "Javatools.Obj.C146_before",
    "Javatools.Obj.C146_refines"
   ],
   "note": "Change objects with their state (verdict and cache of children, and the state an exception leaves) are modelled as a tree, clients as arbitrary sequences of questions at paths; a normal form that fills every cache is shown to determine all answers and to be kept by every call. C146_refines connects the objects with the cache-free trees of Model/Change."
  },
  {
   "property": "C147",
   "status": "partial",
   "theorems": [
    "Javatools.Obj.C147_exact",
    "Javatools.Obj.C147_recheck",
    "Javatools.Obj.C147_partial",
    "Javatools.Obj.C147_stale",
    "Javatools.Obj.C147_full_fails"
   ],
   "note": "False in full: the children collected afresh are unchecked, so until the next check is_ignored answers True for a change (C147_full_fails; C147_stale says exactly when). Proved: checking again restores every answer (C147_recheck), and is_change and the description do not change (C147_partial). C147_exact says it exactly: with a first check that succeeds, collecting afresh alters no answer just when, for a composite that found a change and asks its children under the given options, the unchecked children are all ignored exactly if the checked ones are."
  },
  {
   "property": "C148",
   "status": "proved",
   "theorems": [
    "Javatools.Obj.C148_squash"
   ],
   "note": "Proved from the normal form of C146: squashed children have the verdict of the children, and check leaves squashed objects alone."
  },
  {
   "property": "C149",
   "status": "partial",
   "theorems": [
    "Javatools.C149_full_fails",
    "Javatools.C149_never",
    "Javatools.C149_partial"
   ],
   "note": "False: str() of bytes is their display. C149_never: the answer is never the text; C149_partial: None iff absent or empty, and equal answers mean equal bytes (the display is read back byte by byte)."
  },
  {
   "property": "C150",
   "status": "proved",
   "theorems": [
    "Javatools.C150_member",
    "Javatools.C150_code",
    "Javatools.C150_class"
   ],
   "note": "Invariant: each slot is empty or holds what a fresh computation gives."
  },
  {
   "property": "C151",
   "status": "proved",
   "theorems": [
    "Javatools.C151_constants",
    "Javatools.C151_well_typed",
    "Javatools.C151_file"
   ],
   "note": "Induction over the loop; C151_file ties the tags to the bytes of the file, C151_well_typed the values to the denotation of C09."
  },
  {
   "property": "C152",
   "status": "partial",
   "theorems": [
    "Javatools.C152_exact",
    "Javatools.C152_partial",
    "Javatools.C152_full_fails",
    "Javatools.C152_stale"
   ],
   "note": "False: attributes are put into the old dictionary and the caches stay. C152_exact gives the answers, C152_stale the kept annotations; C152_partial needs an object without kept answers and without attributes the new class lacks."
  },
  {
   "property": "C153",
   "status": "proved",
   "theorems": [
    "Javatools.C153_exact",
    "Javatools.C153_headings",
    "Javatools.C153_shown",
    "Javatools.C153_every",
    "Javatools.C153_once",
    "Javatools.C153_jar",
    "Javatools.C153_dist"
   ],
   "note": "Model/Html: squash, grouping by type and the order of headings. By induction over the children; the groups are characterised exactly (`C153_exact`). With two children of the same heading and entry only the last is shown, so showing each once has that hypothesis. The headings are listed in the statements of C153_jar and C153_dist."
  },
  {
   "property": "C154",
   "status": "proved",
   "theorems": [
    "Javatools.C154_changed",
    "Javatools.C154_unchanged",
    "Javatools.C154_page",
    "Javatools.C154_which"
   ],
   "note": "Model/Html gives the cells with their spans, Spec/Table reads a table by the rules of HTML, independently of how the template makes it. The proof is by induction over lines and instructions."
  },
  {
   "property": "C155",
   "status": "partial",
   "theorems": [
    "Javatools.C155_exact",
    "Javatools.C155_full_fails",
    "Javatools.C155_marker_blank",
    "Javatools.C155_partial",
    "Javatools.C155_unchanged"
   ],
   "note": "False: marker annotations are blank in the changed table (`C155_full_fails`, `C155_marker_blank`). `C155_exact` says what each row shows; `C155_partial` covers annotations with elements, `C155_unchanged` the other table."
  },
  {
   "property": "C156",
   "status": "partial",
   "theorems": [
    "Javatools.C156_full_fails",
    "Javatools.C156_exact",
    "Javatools.C156_zero_blank",
    "Javatools.C156_partial",
    "Javatools.C156_unchanged"
   ],
   "note": "False: constants of value 0 are blank in the changed table (`C156_full_fails`, `C156_zero_blank`). `C156_exact` says what each row shows; `C156_partial` covers pools without such constants, `C156_unchanged` the other table."
  },
  {
   "property": "C157",
   "status": "partial",
   "theorems": [
    "Javatools.C157_classes",
    "Javatools.C157_partial",
    "Javatools.C157_full_fails",
    "Javatools.C157_class_name",
    "Javatools.C157_entry",
    "Javatools.C157_link",
    "Javatools.C157_link_fails",
    "Javatools.C157_code",
    "Javatools.C157_words"
   ],
   "note": "False (`C157_full_fails`; `C157_class_name` and `C157_link_fails` put any tag into the page). Model/Markup has the templates as sequences of tags, escaped and unescaped texts; Spec/Markup reads the tags of a page. `C157_partial`: if the unescaped texts (`ClassPage.raws`) have no `<`, the tags are those of the blank page. `C157_code` and `C157_words` show that code, flags and platforms never have one; `C157_entry`, `C157_link` are about entries. C157_classes: for the page made from two classes it follows from names of classes and texts of annotations without <."
  },
  {
   "property": "C158",
   "status": "partial",
   "theorems": [
    "Javatools.C158_classes",
    "Javatools.C158_exact",
    "Javatools.C158_partial",
    "Javatools.C158_members_fail",
    "Javatools.C158_full_fails"
   ],
   "note": "False (`C158_full_fails`). `C158_exact`: where no text spoils the tags, a report is well-formed if and only if it has no added method, no changed member with unchanged name or type, and no equal constants in a changed pool; `C158_partial` is one half of that. By running a stack of open elements over the templates. C158_classes: for the page made from two compiled classes it holds if and only if they have no field in common, the new class has no methods at all, and a changed constant pool has no equal constants at one index."
  },
  {
   "property": "C159",
   "status": "partial",
   "theorems": [
    "Javatools.C159_words",
    "Javatools.C159_exact",
    "Javatools.C159_partial",
    "Javatools.C159_contents",
    "Javatools.C159_full_fails"
   ],
   "note": "Model/KnownArgs.lean models `parse_known_args` (CPython 3.11) for several positional arguments of one word, `nargs=\"+\"` and words left over. A command line is a list of CmdPiece (options as spelled in C134, words, unknown options). `C159_words`: without `--` exactly as stated, unknown options being packed as paths too; `C159_contents`: the entries of the archive (with C95). False with `--` (`C159_full_fails`): `C159_exact` says when `--` itself becomes a path; `C159_partial` is the rest."
  },
  {
   "property": "C160",
   "status": "partial",
   "theorems": [
    "Javatools.C160_exact",
    "Javatools.C160_ignored",
    "Javatools.C160_partial",
    "Javatools.C160_full_fails"
   ],
   "note": "False (`C160_full_fails`): the option is never looked at. `C160_exact`: the manifest has nothing but its version; `C160_ignored`: command lines with the same words make the same archive; `C160_partial`: as stated if no main class is given."
  },
  {
   "property": "C161",
   "status": "proved",
   "theorems": [
    "Javatools.C161_words",
    "Javatools.C161_dashes"
   ],
   "note": "`C161_words` for command lines without `--`, `C161_dashes` with words behind `--`; `signMeans` says what the options mean, using the model of `cli_sign_jar` behind its parser (C96)."
  },
  {
   "property": "C162",
   "status": "partial",
   "theorems": [
    "Javatools.C162_partial",
    "Javatools.C162_dashes",
    "Javatools.C162_exact",
    "Javatools.C162_swallowed",
    "Javatools.C162_full_fails"
   ],
   "note": "False (`C162_full_fails`): `-i` takes all the words behind it. `C162_exact`: a command line means what it means with the words directly behind patterns as patterns (`swallow`); `C162_swallowed`: with the content there it is refused; `C162_partial`: as stated if no word is directly behind patterns; `C162_dashes`: or if the content is behind `--`."
  },
  {
   "property": "C163",
   "status": "partial",
   "theorems": [
    "Javatools.C163_exact",
    "Javatools.C163_partial",
    "Javatools.C163_empty",
    "Javatools.C163_full_fails"
   ],
   "note": "C163_full is false (C163_full_fails: `Class-Path: ` with an empty value). C163_exact gives the exact condition: every attribute of the main section and of the sections that are kept (those of entries that are not recorded anew) has a name of 1 to 68 bytes and a value, and recorded entries have names. Keys and certificates are assumed to work (`Usable`), digests not to be empty."
  },
  {
   "property": "C164",
   "status": "partial",
   "theorems": [
    "Javatools.C164_partial",
    "Javatools.C164_printable",
    "Javatools.C164_full_fails"
   ],
   "note": "Composition of the models of the three commands; the archive one command writes is what the next one reads (zipfile is trusted). C164_full is false (a file name with a line break); C164_partial is for aliases without slash and NUL, paths that bring no manifest, signature file or block file of the alias, and names that can be recorded in a manifest (SafeName: no line breaks, no character broken by the folding); C164_printable is the plain case of printable names outside META-INF."
  },
  {
   "property": "C165",
   "status": "partial",
   "theorems": [
    "Javatools.C165_distinct",
    "Javatools.C165_listed",
    "Javatools.C165_none",
    "Javatools.C165_full_fails",
    "Javatools.C165_partial",
    "Javatools.C165_exact"
   ],
   "note": "Model/Build: the build command for templates (javatools/cheetah/setuptools.py) over arbitrary directory listings, files with modification times and any compiler. Fails only for distributions without packages, for which listing raises (C165_exact); C165_listed gives the exact list, C165_distinct that no two templates share a file."
  },
  {
   "property": "C166",
   "status": "partial",
   "theorems": [
    "Javatools.C166_each",
    "Javatools.C166_exact",
    "Javatools.C166_partial",
    "Javatools.C166_full_fails",
    "Javatools.C166_failed"
   ],
   "note": "False: the output is only compared by modification time. C166_each/C166_exact say exactly which templates are compiled and when the property holds; C166_partial is the build into an empty directory; C166_failed that a failed build is not noticed by the next one. Assumes that Cheetah compiles in str(), after the output was opened."
  },
  {
   "property": "C167",
   "status": "partial",
   "theorems": [
    "Javatools.C167_exact",
    "Javatools.C167_full_fails",
    "Javatools.C167_found",
    "Javatools.C167_partial",
    "Javatools.C167_package"
   ],
   "note": "C167_exact: when get_templates raises and what it gives otherwise, for any directory; C167_found: which compiled templates are found (all but those with a dot in the name or called setuptools or __init__); C167_package: for the templates of the package this is the list from which the template lookup (C130) starts."
  },
  {
   "property": "C168",
   "status": "partial",
   "theorems": [
    "Javatools.C168_jquery",
    "Javatools.C168_exact",
    "Javatools.C168_exact_dist",
    "Javatools.C168_partial",
    "Javatools.C168_full_fails"
   ],
   "note": "Model/Page puts the page together from report.tmpl and the templates of archives and distributions. False for every page with the reference to jQuery, whatever it shows (C168_jquery); with addresses without quotes, true exactly without it (C168_exact, C168_exact_dist). White space is not modelled; entities in text are not part of the claim."
  },
  {
   "property": "C169",
   "status": "partial",
   "theorems": [
    "Javatools.C169_partial",
    "Javatools.C169_full_fails"
   ],
   "note": "False through the links of changed classes and JARs (C169_full_fails); proved for any label and any other name when the names in links have no quotes (C169_partial)."
  },
  {
   "property": "C170",
   "status": "partial",
   "theorems": [
    "Javatools.C170_partial",
    "Javatools.C170_full_fails"
   ],
   "note": "Model/JarPage puts the checked changes of a JarReport into the templates; Spec/Page reads headings and names back from the characters of the page. Composes the archive comparison (C55), the change objects (C67), the grouping (C153) and the page (C168). False because names are put into links unquoted (C170_full_fails: a class name that adds a heading); C170_partial needs non-empty names, and no quotes in the names of classes that both archives have with different contents."
  },
  {
   "property": "C171",
   "status": "partial",
   "theorems": [
    "Javatools.C171_partial",
    "Javatools.C171_full_fails"
   ],
   "note": "Model/DistPage takes the children of a checked DistReport to the templates of Model/Page; what is shown is read off the rendered characters by Spec/Page (shownOn). False in full: a class or JAR whose path contains a quotation mark breaks out of its link and can add a heading (C171_full_fails). Proved for trees without a file on one side that is a directory on the other, in which files of the same size and time are the same (both as in C59), and with no quotation mark in the path of a changed class or JAR."
  },
  {
   "property": "C172",
   "status": "partial",
   "theorems": [
    "Javatools.C172_partial",
    "Javatools.C172_exact",
    "Javatools.C172_full_fails"
   ],
   "note": "Model/ClassPage takes the checked changes of a JavaClassReport and the data that the templates ask the classes for to the templates of Model/Markup; the headings are read off the rendered characters (headedOn, shownMembers in Props/ClassPage). That no text spoils the tags is proved from the classes (page_clean). False in full: added and removed fields are shown without their names (C172_full_fails). C172_exact: it holds for exactly the pairs of classes without added or removed fields; C172_partial: all methods and the kept fields."
  },
  {
   "property": "C173",
   "status": "proved",
   "theorems": [
    "Javatools.C173_status"
   ],
   "note": "The marks are read off the tags of the rendered page (loudOn in Props/ClassLoud); proved from the classes on with page_clean of C172, over all blocks at all depths, and the composite rule of is_ignored (C35)."
  },
  {
   "property": "C174",
   "status": "partial",
   "theorems": [
    "Javatools.C174_partial",
    "Javatools.C174_full_fails",
    "Javatools.C174_exact"
   ],
   "note": "The marks are read off the tags of the rendered page (loudOn); what the templates are given comes from the archives (Model/JarPage). False: parts of an entry that is ignored by an option are marked as changed (C174_full_fails with --ignore-manifest). C174_partial: status 1 always shows a marked block; status and page agree whenever no changed entry other than a class is ignored by a pattern or by --ignore-manifest or --ignore-jar-signature. Classes may be ignored in any way, as their blocks have no parts on this page. Names of changed classes have no quotation marks (C169). C174_exact says for exactly which comparisons it holds: those with status 1, and those without an ignored entry that has changes below it which are not ignored."
  },
  {
   "property": "C175",
   "status": "partial",
   "theorems": [
    "Javatools.C175_partial",
    "Javatools.C175_full_fails",
    "Javatools.C175_exact"
   ],
   "note": "As C174, with the trees of Model/DistPage; no condition on the trees themselves (files that clash with directories and files of the same size and time included). False with --ignore-trailing-whitespace (C175_full_fails). C175_partial: status 1 always shows a marked block; they agree whenever no changed text or manifest is ignored by a pattern, as white space, or by --ignore-manifest. C175_exact says for exactly which comparisons they agree, in the same way."
  },
  {
   "property": "C176",
   "status": "proved",
   "theorems": [
    "Javatools.C176_exact",
    "Javatools.C176_all",
    "Javatools.C176_differing"
   ],
   "note": "The report is the simplified tree of Model/Change.toJson; C176_all and C176_differing are the two halves of the statement. Differing manifests and signature files are listed as their own comparison finds (not part of the claim). C176_exact: without the options, exactly the entries that count in the sense of C73_exact are listed, each once."
  },
  {
   "property": "C177",
   "status": "partial",
   "theorems": [
    "Javatools.C177_exact",
    "Javatools.C177_partial",
    "Javatools.C177_full_fails"
   ],
   "note": "As C176 for directory trees. False: a differing file of no special kind is not listed (C177_full_fails, the defect of C63). C177_partial, for trees without a file on one side that is a directory on the other, in which files of the same size and time are the same (both as in C59): with the options all files are listed; without them no file twice and only files that are not the same and not ignored, and of these all added and removed ones, texts whose lines differ, and classes and JARs in whose own comparison a change is found. C177_exact: without the options, exactly the files that count in the sense of C63_exact are listed, each once."
  },
  {
   "property": "C178",
   "status": "proved",
   "theorems": [
    "Javatools.C178_rows",
    "Javatools.C178_texts"
   ],
   "note": "The tables are read from the rendered characters (tablesOn in Props/ClassRows); what each should be is given by the lists classProps, fieldProps, methodProps and singleProps of properties with the condition under which the versions differ. Proved from the classes on with page_clean of C172. White space inside cells is not modelled."
  },
  {
   "property": "C179",
   "status": "partial",
   "theorems": [
    "Javatools.C179_exact",
    "Javatools.C179_partial",
    "Javatools.C179_full_fails"
   ],
   "note": "The table is read from the rendered characters (constReader.read, Props/PageTables and Props/ClassConsts); constText gives type and value of a constant (C102). False for pools of different sizes: the last index that both have is listed again, as if one class lacked it (C179_full_fails, the defect of C34 seen on the page); and of the number 0 only the type is shown (the defect of C156). C179_exact gives the rows for all pools; C179_partial: without the number 0 all of the claim for equal pools and for pools of the same length, and otherwise that every index has its row."
  },
  {
   "property": "C180",
   "status": "partial",
   "theorems": [
    "Javatools.C180_exact",
    "Javatools.C180_partial",
    "Javatools.C180_full_fails"
   ],
   "note": "The tables are read from the rendered characters (annoReader.read, Props/PageTables and Props/ClassAnnos); annoText gives the text of an annotation, annosDiffer compares two lists as Python does. False: where the lists differ, an annotation without elements such as @Override is left blank (C180_full_fails, the defect of C155 seen on the page). C180_exact gives the tables for all classes; C180_partial is the claim for classes whose annotations all have elements."
  },
  {
   "property": "C181",
   "status": "proved",
   "theorems": [
    "Javatools.C181_tables"
   ],
   "note": "The tables, their titles, cells and spans are read from the rendered characters (codeTablesOn in Props/ClassCode); readColumns (Spec/Table) fills the columns from the spans as a browser does and fails on gaps and overlaps. The contents are those of C154 (shownGroup, shownPlain). A rowspan of 1, which the template also writes, is left out in the model."
  },
  {
   "property": "C182",
   "status": "partial",
   "theorems": [
    "Javatools.C182_field",
    "Javatools.C182_method",
    "Javatools.C182_partial",
    "Javatools.C182_full_fails",
    "Javatools.C182_exact",
    "Javatools.C182_method_exact"
   ],
   "note": "FieldHas and MethodHas say what the member has in terms of the constant pool (Spec/Descriptor gives descriptors and Java types); memberSays is what the dictionary should say under each key. False: is_deprecated is false for an empty Deprecated attribute, which is what class files have (the defect of C13), so the key is missing (C182_full_fails). C182_field and C182_method give the dictionaries in all cases, C182_exact and C182_method_exact say for which members they are as they should be."
  }
 ]
}