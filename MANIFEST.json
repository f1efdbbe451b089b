{
 "claims": [
  {
   "property": "C01",
   "status": "partial",
   "theorems": [
    "Verif.Props.C01_roundtrip_partial",
    "Verif.Props.C01_lossy_partial",
    "Verif.Props.C01_oneof_violated"
   ],
   "note": "proved for all types and values nested less than 500 deep, exactly (C01_roundtrip_partial) if no oneof member holds a default value, and up to such oneofs without that condition (C01_lossy_partial); false of the code in general (C01_oneof_violated); depths 500 to 1000 are covered by C22_exact_partial"
  },
  {
   "property": "C02",
   "status": "proved",
   "theorems": [
    "Verif.Props.C02_size"
   ],
   "note": ""
  },
  {
   "property": "C03",
   "status": "proved",
   "theorems": [
    "Verif.Props.C03_append"
   ],
   "note": ""
  },
  {
   "property": "C04",
   "status": "proved",
   "theorems": [
    "Verif.Props.C04_varint_is_shortest",
    "Verif.Props.C04_writers64",
    "Verif.Props.C04_writerU32",
    "Verif.Props.C04_writerI32",
    "Verif.Props.C04_writersZigZag",
    "Verif.Props.C04_writerBool",
    "Verif.Props.C04_list_writers",
    "Verif.Props.C04_size"
   ],
   "note": "all varint writers, all values and prefixes; varint n is shown to be the unique shortest encoding"
  },
  {
   "property": "C05",
   "status": "proved",
   "theorems": [
    "Verif.Props.C05_ok_iff",
    "Verif.Props.C05_truncated_iff",
    "Verif.Props.C05_overflow_iff",
    "Verif.Props.C05_total",
    "Verif.Props.C05_prefix_unique",
    "Verif.Props.C05_suffix_irrelevant",
    "Verif.Props.C05_inverts_writers",
    "Verif.Props.C05_fast_path"
   ],
   "note": "exact characterisation of success, truncation and overflow"
  },
  {
   "property": "C06",
   "status": "proved",
   "theorems": [
    "Verif.Props.C06_zigzag64",
    "Verif.Props.C06_inverse64",
    "Verif.Props.C06_zigzag32",
    "Verif.Props.C06_spec_bijection"
   ],
   "note": ""
  },
  {
   "property": "C07",
   "status": "proved",
   "theorems": [
    "Verif.Props.C07_write",
    "Verif.Props.C07_read",
    "Verif.Props.C07_roundtrip",
    "Verif.Props.C07_list_writers"
   ],
   "note": ""
  },
  {
   "property": "C08",
   "status": "proved",
   "theorems": [
    "Verif.Props.C08_roundtrip",
    "Verif.Props.C08_consume_iff",
    "Verif.Props.C08_rejects",
    "Verif.Props.C08_kv_tags"
   ],
   "note": ""
  },
  {
   "property": "C09",
   "status": "proved",
   "theorems": [
    "Verif.Props.C09_backpatch",
    "Verif.Props.C09_readback",
    "Verif.Props.C09_consume_iff"
   ],
   "note": "payload length below 2^64 (Go lengths are below 2^63)"
  },
  {
   "property": "C10",
   "status": "proved",
   "theorems": [
    "Verif.Props.C10_uint64",
    "Verif.Props.C10_uint32",
    "Verif.Props.C10_int32",
    "Verif.Props.C10_sint64",
    "Verif.Props.C10_sint32",
    "Verif.Props.C10_fixed64",
    "Verif.Props.C10_fixed32",
    "Verif.Props.C10_bool"
   ],
   "note": "lists with 10*len < 2^64"
  },
  {
   "property": "C11",
   "status": "partial",
   "theorems": [
    "Verif.Props.C11_elements_partial",
    "Verif.Props.C11_two_blocks_violated",
    "Verif.Props.C11_packed_for_unpacked_violated"
   ],
   "note": "elements appended one by one are proved; the claim is false of the code for several packed blocks and for packed data of a field declared unpacked (see the _violated theorems)"
  },
  {
   "property": "C12",
   "status": "proved",
   "theorems": [
    "Verif.Props.C12_preserved",
    "Verif.Props.C12_reemitted",
    "Verif.Props.C12_skipped"
   ],
   "note": "exact storage content, re-emission, and skipping"
  },
  {
   "property": "C13",
   "status": "proved",
   "theorems": [
    "Verif.Props.C13_skip_iff",
    "Verif.Props.C13_in_bounds",
    "Verif.Props.C13_suffix_irrelevant",
    "Verif.Props.C13_field_iff"
   ],
   "note": "soundness and completeness against the grammar in Spec/Grammar.lean"
  },
  {
   "property": "C14",
   "status": "proved",
   "theorems": [
    "Verif.Props.C14_ascending"
   ],
   "note": ""
  },
  {
   "property": "C15",
   "status": "proved",
   "theorems": [
    "Verif.Props.C15_swap"
   ],
   "note": ""
  },
  {
   "property": "C16",
   "status": "proved",
   "theorems": [
    "Verif.Props.C16_concat"
   ],
   "note": ""
  },
  {
   "property": "C17",
   "status": "proved",
   "theorems": [
    "Verif.Props.C17_last_wins"
   ],
   "note": ""
  },
  {
   "property": "C18",
   "status": "proved",
   "theorems": [
    "Verif.Props.C18_entries"
   ],
   "note": ""
  },
  {
   "property": "C19",
   "status": "proved",
   "theorems": [
    "Verif.Props.C19_prefix"
   ],
   "note": ""
  },
  {
   "property": "C20",
   "status": "proved",
   "theorems": [
    "Verif.Props.C20_memory",
    "Verif.Props.C20_cycle",
    "Verif.Props.C20_depth"
   ],
   "note": "exact characterisation of the depth error, for trees (C20_depth) and for memory with sharing and cycles (C20_memory, C20_cycle)"
  },
  {
   "property": "C21",
   "status": "partial",
   "theorems": [
    "Verif.Props.C21_depth_partial",
    "Verif.Props.C21_plain_partial",
    "Verif.Props.C21_bypass_violated"
   ],
   "note": "false of the code through map hops (C21_bypass_violated); proved when every map level counts twice"
  },
  {
   "property": "C22",
   "status": "partial",
   "theorems": [
    "Verif.Props.C22_symmetry_violated",
    "Verif.Props.C22_exact_partial",
    "Verif.Props.C22_nomaps_partial"
   ],
   "note": "false of the code (C22_symmetry_violated); exact characterisation of the accepted outputs, and true without maps of messages"
  },
  {
   "property": "C23",
   "status": "partial",
   "theorems": [
    "Verif.Props.C23_accepted_partial",
    "Verif.Props.C23_pointer_to_map_violated",
    "Verif.Props.C23_total_partial"
   ],
   "note": "proved for all types implementing a schema and for all accepted types with ordinary field types (C23_accepted_partial); accepted types outside that class can panic (C23_pointer_to_map_violated)"
  },
  {
   "property": "C24",
   "status": "proved",
   "theorems": [
    "Verif.Props.C24_mismatch"
   ],
   "note": ""
  },
  {
   "property": "C25",
   "status": "partial",
   "theorems": [
    "Verif.Props.C25_even_violated",
    "Verif.Props.C25_long_violated",
    "Verif.Props.C25_canonical_partial",
    "Verif.Props.C25_single_partial"
   ],
   "note": "false of the code (C25_even_violated, C25_long_violated); proved for canonical booleans and for the single-value rule"
  },
  {
   "property": "C26",
   "status": "partial",
   "theorems": [
    "Verif.Props.C26_one_member",
    "Verif.Props.C26_zero_member_violated",
    "Verif.Props.C26_member_partial",
    "Verif.Props.C26_last_member_wins"
   ],
   "note": "at most one member, last member wins, and members with non-default values survive; the claim that a set member is always written is false of the code (C26_zero_member_violated)"
  },
  {
   "property": "C27",
   "status": "proved",
   "theorems": [
    "Verif.Props.C27_lookup",
    "Verif.Props.C27_absent"
   ],
   "note": ""
  },
  {
   "property": "C28",
   "status": "proved",
   "theorems": [
    "Verif.Props.C28_fields",
    "Verif.Props.C28_accepted",
    "Verif.Props.C28_duplicate"
   ],
   "note": "acceptance is characterised exactly"
  },
  {
   "property": "C29",
   "status": "proved",
   "theorems": [
    "Verif.Props.C29_marshal",
    "Verif.Props.C29_size",
    "Verif.Props.C29_decode",
    "Verif.Props.C29_decode_entry",
    "Verif.Props.C29_bool_violated"
   ],
   "note": "encoder and sizer: unconditional equality with the generic path; decoder: equality on every record without booleans and on every record Marshal writes; they differ on other booleans (C29_bool_violated)"
  },
  {
   "property": "C30",
   "status": "proved",
   "theorems": [
    "Verif.Props.C30_cache"
   ],
   "note": "unconditional: any types, any input"
  },
  {
   "property": "C31",
   "status": "proved",
   "theorems": [
    "Verif.Props.C31_arena"
   ],
   "note": "the blocks returned by the Go runtime are assumed disjoint"
  },
  {
   "property": "C32",
   "status": "proved",
   "theorems": [
    "Verif.Props.C32_map",
    "Verif.Props.C32_concurrent",
    "Verif.Props.C32_lookup_total"
   ],
   "note": "sequential map semantics under any collisions, and all interleavings of concurrent lookups and insertions (atomic steps: pointer load, locked section)"
  },
  {
   "property": "C33",
   "status": "partial",
   "theorems": [
    "Verif.Props.C33_partial",
    "Verif.Props.C33_parse_violated",
    "Verif.Props.C33_finalize_violated",
    "Verif.Props.C33_panic_violated"
   ],
   "note": "proved for all histories of successful uses, and for histories with failures when no type refers to itself; false after a failure with mutually recursive types (C33_parse_violated, C33_finalize_violated) and after a panic the program recovers from (C33_panic_violated): a type rejected on fresh caches is accepted later"
  },
  {
   "property": "C34",
   "status": "partial",
   "theorems": [
    "Verif.Props.C34_tag_partial",
    "Verif.Props.C34_kvtag",
    "Verif.Props.C34_exact",
    "Verif.Props.C34_kv_exact",
    "Verif.Props.C34_words",
    "Verif.Props.C34_number",
    "Verif.Props.C34_option",
    "Verif.Props.C34_default_violated",
    "Verif.Props.C34_number_violated"
   ],
   "note": "for every string it is proved what the runtime reads in it (C34_exact, C34_kv_exact), and that this is the declared encoding, number and flags when no option contains a comma; false for defaults with commas (C34_default_violated), and numbers are not checked (C34_number_violated)"
  },
  {
   "property": "C35",
   "status": "partial",
   "theorems": [
    "Verif.Props.C35_exact",
    "Verif.Props.C35_exact_all",
    "Verif.Props.C35_schema_partial",
    "Verif.Props.C35_safe_partial",
    "Verif.Props.C35_slice_violated",
    "Verif.Props.C35_pointers_violated",
    "Verif.Props.C35_packed_pointers_violated",
    "Verif.Props.C35_map_pointers_violated",
    "Verif.Props.C35_list_of_maps_violated"
   ],
   "note": "false of the code: six accepted types with wrong memory accesses or panics. Proved for all accepted types whose tagged fields have ordinary Go types (T, *T, M, *M, []T, []M, []*M, map[K]T, map[K]M, map[K]*M; oneof wrappers holding T, *M or M) and whose lists say rep, whatever else the tags say (C35_schema_partial, C35_safe_partial).  Missing: the accepted types outside that class, for which it is false. Which types are accepted is characterised exactly, for all struct types and tags, by C35_exact and C35_exact_all on Spec/Fits.lean, which refers to no function of the model"
  },
  {
   "property": "C36",
   "status": "proved",
   "theorems": [
    "Verif.Props.C36_length",
    "Verif.Props.C36_fails",
    "Verif.Props.C36_deterministic",
    "Verif.Props.C36_decode"
   ],
   "note": "length, determinism, and decoding of either order"
  },
  {
   "property": "C37",
   "status": "partial",
   "theorems": [
    "Verif.Props.C37_memory",
    "Verif.Props.C37_encoding",
    "Verif.Props.C37_protobuf_partial",
    "Verif.Props.C37_wellformed"
   ],
   "note": "false of the code for oneof members holding default values (see C26); everything else is exact"
  },
  {
   "property": "C38",
   "status": "proved",
   "theorems": [
    "Verif.Props.C38_presence"
   ],
   "note": ""
  },
  {
   "property": "C39",
   "status": "partial",
   "theorems": [
    "Verif.Props.C39_nil_violated",
    "Verif.Props.C39_typed_nil_violated",
    "Verif.Props.C39_typed_nil_partial"
   ],
   "note": "the code treats nil in three different ways; see the _violated theorems"
  },
  {
   "property": "C40",
   "status": "proved",
   "theorems": [
    "Verif.Props.C40_roundtrip",
    "Verif.Props.C40_padded_end",
    "Verif.Props.C40_sound"
   ],
   "note": ""
  },
  {
   "property": "C41",
   "status": "partial",
   "theorems": [
    "Verif.Props.C41_grow",
    "Verif.Props.C41_decode_partial",
    "Verif.Props.C41_spare",
    "Verif.Props.C41_stale_violated"
   ],
   "note": "order, length and capacity for all element types (C41_grow); agreement with the list model except for spare cells of lists of structs held by value, where the claim is false (C41_stale_violated)"
  },
  {
   "property": "C42",
   "status": "partial",
   "theorems": [
    "Verif.Props.C42_tag_partial",
    "Verif.Props.C42_read_partial",
    "Verif.Props.C42_unpacked_violated",
    "Verif.Props.C42_dot_violated"
   ],
   "note": "all tags of all field declarations, except that proto3 [packed=false] is generated as packed (C42_unpacked_violated) and a message type whose dotted name ends in a scalar keyword gets the tag of the scalar (C42_dot_violated)"
  },
  {
   "property": "C43",
   "status": "partial",
   "theorems": [
    "Verif.Props.C43_partial",
    "Verif.Props.C43_ranges",
    "Verif.Props.C43_names_violated",
    "Verif.Props.C43_same_name_violated",
    "Verif.Props.C43_zero_violated"
   ],
   "note": "exact for numbers (C43_partial); reserved and duplicate names and numbers outside of 1..2^29-1 are not rejected (C43_names_violated, C43_same_name_violated, C43_zero_violated)"
  },
  {
   "property": "C44",
   "status": "proved",
   "theorems": [
    "Verif.Props.C44_sorted",
    "Verif.Props.C44_root_first",
    "Verif.Props.C44_load_iff",
    "Verif.Props.C44_load"
   ],
   "note": "the file system is a partial function from paths to lists of imports"
  },
  {
   "property": "C45",
   "status": "partial",
   "theorems": [
    "Verif.Props.C45_partial",
    "Verif.Props.C45_shape",
    "Verif.Props.C45_oneof_getter_violated",
    "Verif.Props.C45_wrappers_violated"
   ],
   "note": "all names except the getters of oneofs and XXX_OneofWrappers, which can collide with fields (C45_oneof_getter_violated, C45_wrappers_violated)"
  },
  {
   "property": "C46",
   "status": "proved",
   "theorems": [
    "Verif.Props.C46_nested",
    "Verif.Props.C46_exported",
    "Verif.Props.C46_collisions",
    "Verif.Props.C46_idempotent"
   ],
   "note": ""
  },
  {
   "property": "C47",
   "status": "proved",
   "theorems": [
    "Verif.Props.C47_last",
    "Verif.Props.C47_absent",
    "Verif.Props.C47_directives",
    "Verif.Props.C47_switch"
   ],
   "note": ""
  },
  {
   "property": "C48",
   "status": "partial",
   "theorems": [
    "Verif.Props.C48_decode",
    "Verif.Props.C48_reject",
    "Verif.Props.C48_escaped",
    "Verif.Props.C48_unique",
    "Verif.Props.C48_concat_violated",
    "Verif.Props.C48_bigX_violated"
   ],
   "note": "exact for a single literal (C48_decode, C48_reject); of adjacent literals only the first is read (C48_concat_violated) and \\X escapes are rejected (C48_bigX_violated)"
  },
  {
   "property": "C49",
   "status": "proved",
   "theorems": [
    "Verif.Props.C49_names",
    "Verif.Props.C49_values",
    "Verif.Props.C49_string",
    "Verif.Props.C49_injective"
   ],
   "note": "C49_values and C49_injective assume that no name is declared twice"
  },
  {
   "property": "C50",
   "status": "proved",
   "theorems": [
    "Verif.Props.C50_exact",
    "Verif.Props.C50_typed"
   ],
   "note": "the decoder is characterised by a relation on byte strings"
  },
  {
   "property": "C51",
   "status": "proved",
   "theorems": [
    "Verif.Props.C51_stable",
    "Verif.Props.C51_inline_violated"
   ],
   "note": "the restriction on by-value messages in the statement is necessary: C51_inline_violated"
  },
  {
   "property": "C52",
   "status": "proved",
   "theorems": [
    "Verif.Props.C52_reread",
    "Verif.Props.C52_unknown"
   ],
   "note": ""
  },
  {
   "property": "C53",
   "status": "partial",
   "theorems": [
    "Verif.Props.C53_numbers",
    "Verif.Props.C53_enum_partial",
    "Verif.Props.C53_min_violated",
    "Verif.Props.C53_ranges_partial",
    "Verif.Props.C53_octal_violated",
    "Verif.Props.C53_hex_violated"
   ],
   "note": "decimal literals everywhere, all notations for field numbers (C53_numbers); octal and hexadecimal reserved ranges and the smallest enum value are misread or rejected (C53_octal_violated, C53_hex_violated, C53_min_violated)"
  },
  {
   "property": "C54",
   "status": "partial",
   "theorems": [
    "Verif.Props.C54_types_partial",
    "Verif.Props.C54_types_violated",
    "Verif.Props.C54_wrapper_nested_partial",
    "Verif.Props.C54_wrappers_violated",
    "Verif.Props.C54_wrappers_partial",
    "Verif.Props.C54_consts_partial",
    "Verif.Props.C54_consts_violated"
   ],
   "note": "proved for type names in the recommended style, for wrappers unless a nested type has the name of one, and for the constants of an enum if all or none of them are prefixed; false in general (C54_types_violated, C54_wrappers_violated, C54_consts_violated)"
  },
  {
   "property": "C55",
   "status": "partial",
   "theorems": [
    "Verif.Props.C55_resolves_partial",
    "Verif.Props.C55_candidate_partial",
    "Verif.Props.C55_self_violated",
    "Verif.Props.C55_outer_package_violated",
    "Verif.Props.C55_no_package_violated",
    "Verif.Props.C55_rooted_violated",
    "Verif.Props.C55_doubled_violated",
    "Verif.Props.C55_public_violated"
   ],
   "note": "proved for tidy worlds and for names found in messages around, in the own package, or written with their package; violated for outer packages, files without package, names with a leading dot, a message nested in a message of the same name, repeated packages and public imports across Go packages"
  },
  {
   "property": "C56",
   "status": "partial",
   "theorems": [
    "Verif.Props.C56_implements_partial",
    "Verif.Props.C56_wire_partial",
    "Verif.Props.C56_required_violated",
    "Verif.Props.C56_unpacked_violated"
   ],
   "note": "proved for files that follow the language rules and the resolution conditions of C55 (structure Handled); what the Go compiler makes of the generated declarations is assumed here (structure Compiles) and derived from the generated text in C94. Violated for LEGACY_REQUIRED (generated without presence) and [packed=false] in proto3. Missing besides: enums nested deeper than one message"
  },
  {
   "property": "C57",
   "status": "partial",
   "theorems": [
    "Verif.Props.C57_getters_partial",
    "Verif.Props.C57_total",
    "Verif.Props.C57_functional",
    "Verif.Props.C57_default_violated",
    "Verif.Props.C57_enum_violated"
   ],
   "note": "proved for files as in C56 whose generated constants and wrapper types have distinct names (Go does not compile others). Violated: a proto2 [default = ...] is ignored by the getter, and an unset proto2 enum field yields 0 instead of the first value"
  },
  {
   "property": "C58",
   "status": "partial",
   "theorems": [
    "Verif.Props.C58_writer",
    "Verif.Props.C58_file_partial",
    "Verif.Props.C58_name_violated",
    "Verif.Props.C58_collision_violated",
    "Verif.Props.C58_shadow_violated"
   ],
   "note": "the writer is proved in full (C58_writer); for whole files proved when imported packages are called like the last element of their path, those elements differ and none is x. Violated otherwise: a package renamed by go_package \"path;name\" is mentioned under the last path element, equal last elements collide, a package called x is hidden by the receiver of getters"
  },
  {
   "property": "C59",
   "status": "partial",
   "theorems": [
    "Verif.Props.C59_comments",
    "Verif.Props.C59_once",
    "Verif.Props.C59_enum_line_partial",
    "Verif.Props.C59_percent_violated"
   ],
   "note": "The attachment of comments is proved in full (C59_comments: exactly the comments above or beside that were not taken before, in order; C59_once: none twice). The copying is partial: C59_enum_line_partial covers comments without %; C59_percent_violated: the comment behind an enum is used as a format string (code.go:137), so a % in it is garbled."
  },
  {
   "property": "C60",
   "status": "partial",
   "theorems": [
    "Verif.Props.C60_closed_partial",
    "Verif.Props.C60_types_partial",
    "Verif.Props.C60_nested_enum_violated",
    "Verif.Props.C60_public_violated"
   ],
   "note": "Proved for all files without enums nested more than two deep and without public imports of another Go package, with no condition on names or scopes (C60_closed_partial; C60_types_partial says exactly which types are declared). Violated otherwise: C60_nested_enum_violated (used but never declared), C60_public_violated (wrong Go package)."
  },
  {
   "property": "C61",
   "status": "partial",
   "theorems": [
    "Verif.Props.C61_command_partial",
    "Verif.Props.C61_file_partial",
    "Verif.Props.C61_quote_violated",
    "Verif.Props.C61_newline_violated",
    "Verif.Props.C61_placeholder_violated"
   ],
   "note": "Command line proved for arguments without single quotes, the layout of the file for arguments without newlines and {. Violated otherwise: C61_quote_violated, C61_newline_violated, C61_placeholder_violated."
  },
  {
   "property": "C62",
   "status": "partial",
   "theorems": [
    "Verif.Props.C62_import_partial",
    "Verif.Props.C62_relative",
    "Verif.Props.C62_distinct_partial",
    "Verif.Props.C62_overwrite_violated",
    "Verif.Props.C62_outside_violated",
    "Verif.Props.C62_go_out_violated"
   ],
   "note": "paths=import proved for import paths without . and .. and any output directory; collisions characterised exactly (C62_distinct_partial). Violated: C62_overwrite_violated (same name and Go package in different directories), C62_outside_violated (import path with ..), C62_go_out_violated (output directory ignored with paths=source_relative)."
  },
  {
   "property": "C63",
   "status": "partial",
   "theorems": [
    "Verif.Props.C63_paths_partial",
    "Verif.Props.C63_flag_partial",
    "Verif.Props.C63_package_partial",
    "Verif.Props.C63_precedence_violated",
    "Verif.Props.C63_comma_violated",
    "Verif.Props.C63_name_violated"
   ],
   "note": "Proved for options without commas and when M and go_package do not disagree. Violated: C63_comma_violated (several parameters in an option are ignored), C63_precedence_violated (go_package wins over M), C63_name_violated (derived package name need not be an identifier)."
  },
  {
   "property": "C64",
   "status": "proved",
   "theorems": [
    "Verif.Props.C64_load"
   ],
   "note": "Exact: accepted iff Acceptable, and the state then mirrors the tree (LoadedFile). Reserved ranges in decimal; other spellings are the subject of C53. Comments are the subject of C59; directives are carried as read from them."
  },
  {
   "property": "C65",
   "status": "partial",
   "theorems": [
    "Verif.Props.C65_types_partial",
    "Verif.Props.C65_candidate_partial",
    "Verif.Props.C65_methods",
    "Verif.Props.C65_go_name",
    "Verif.Props.C65_enum_violated",
    "Verif.Props.C65_twice_violated",
    "Verif.Props.C65_go_names_violated"
   ],
   "note": "Methods and streams as written: proved (C65_methods). Resolution proved under the conditions of C55 (C65_types_partial, C65_candidate_partial, which includes that scalars are never taken). Violated: C65_enum_violated (an enum as request), C65_twice_violated (services and methods with the same name), C65_go_names_violated."
  },
  {
   "property": "C66",
   "status": "partial",
   "theorems": [
    "Verif.Props.C66_statements_partial",
    "Verif.Props.C66_brackets_violated"
   ],
   "note": "Proved for option statements at every place (C66_statements_partial). Violated for options in brackets: C66_brackets_violated."
  },
  {
   "property": "C67",
   "status": "partial",
   "theorems": [
    "Verif.Props.C67_encoding",
    "Verif.Props.C67_roundtrip_partial"
   ],
   "note": "Same bytes and name: for all. Round trip under the conditions of C01."
  },
  {
   "property": "C68",
   "status": "proved",
   "theorems": [
    "Verif.Props.C68_isolation",
    "Verif.Props.C68_fresh"
   ],
   "note": "For all memories, also shared and cyclic ones; memory is that of Model/Memory.lean (a block for each allocation)."
  },
  {
   "property": "C69",
   "status": "proved",
   "theorems": [
    "Verif.Props.C69_frame",
    "Verif.Props.C69_other"
   ],
   "note": "For all memories, also if decoding fails. The memory that belongs to a message is OwnIn/OwnClosed of Spec/Memory.lean."
  },
  {
   "property": "C70",
   "status": "partial",
   "theorems": [
    "Verif.Props.C70_content_partial",
    "Verif.Props.C70_stale_violated"
   ],
   "note": "Proved for messages without sharing whose lists of inline structs have zeroed spare capacity; violated without the latter (C70_stale_violated)."
  },
  {
   "property": "C71",
   "status": "partial",
   "theorems": [
    "Verif.Props.C71_held_partial",
    "Verif.Props.C71_copy_violated"
   ],
   "note": "Proved for all values that do not contain memory belonging to the message (its arrays, maps and unknown fields); violated for the unknown fields of a copied struct (C71_copy_violated)."
  },
  {
   "property": "C72",
   "status": "partial",
   "theorems": [
    "Verif.Props.C72_lookup_partial",
    "Verif.Props.C72_files",
    "Verif.Props.C72_order_partial",
    "Verif.Props.C72_load_iff_partial",
    "Verif.Props.C72_package_partial",
    "Verif.Props.C72_shadow_violated",
    "Verif.Props.C72_embedded_cycle_violated",
    "Verif.Props.C72_spelling_violated"
   ],
   "note": "false of the code in three respects: embedded files shadow files in include directories, cycles of embedded files are accepted, and M options depend on the spelling of the import path. The rest is proved for all file systems; ordering and the exact condition for success under hypotheses that exclude these cases"
  },
  {
   "property": "C73",
   "status": "partial",
   "theorems": [
    "Verif.Props.C73_separate",
    "Verif.Props.C73_written",
    "Verif.Props.C73_shadowed_violated"
   ],
   "note": "proved: arguments are independent of each other, and what is written for each; false: an argument naming an existing file can mean another file of that name in an include directory (C73_shadowed_violated)"
  },
  {
   "property": "C74",
   "status": "partial",
   "theorems": [
    "Verif.Props.C74_world",
    "Verif.Props.C74_accepted",
    "Verif.Props.C74_sorted_partial",
    "Verif.Props.C74_types_partial",
    "Verif.Props.C74_accepts_partial",
    "Verif.Props.C74_unique_partial"
   ],
   "note": "proved: the result mirrors the texts (C74_world), all reachable files are well formed (C74_accepted); order and resolution if no embedded file imports itself (C72 shows this can fail); success under the conditions of Supported, which exclude the findings of C55/C65 (C74_accepts_partial); uniqueness if M options give one package per file (violated in general, C72)"
  },
  {
   "property": "C75",
   "status": "partial",
   "theorems": [
    "Verif.Props.C75_wire_partial"
   ],
   "note": "for files within Supported (excludes the findings of C42, C54, C55, C56, C60) whose generated code is read by the runtime as Go would compile it (Compiles; derived from the generated text in C94); from parse trees on; C79_wire_partial starts from the characters of the files"
  },
  {
   "property": "C76",
   "status": "partial",
   "theorems": [
    "Verif.Props.C76_file_partial",
    "Verif.Props.C76_comments",
    "Verif.Props.C76_base_violated"
   ],
   "note": "false when the import path of a used package does not end with a Go identifier (C76_base_violated), for enums with a comment containing % beside them (C59) and arguments with newlines or braces (C61); proved for all other files, before formatting by go/format"
  },
  {
   "property": "C77",
   "status": "partial",
   "theorems": [
    "Verif.Props.C77_tokens",
    "Verif.Props.C77_one_reading",
    "Verif.Props.C77_sound",
    "Verif.Props.C77_dropped_violated"
   ],
   "note": "C77_tokens, C77_one_reading and C77_sound hold for all texts. Missing: text that is no lexical element should be an error; it is dropped silently (C77_dropped_violated)."
  },
  {
   "property": "C78",
   "status": "partial",
   "theorems": [
    "Verif.Props.C78_sound",
    "Verif.Props.C78_complete",
    "Verif.Props.C78_accepts",
    "Verif.Props.C78_unambiguous",
    "Verif.Props.C78_text",
    "Verif.Props.C78_layout",
    "Verif.Props.C78_names_violated",
    "Verif.Props.C78_constructs_violated",
    "Verif.Props.C78_option_violated"
   ],
   "note": "Proved for all token lists and texts: accepted iff the grammar derives it (C78_accepts), nothing misread (C78_sound), what is written is read (C78_complete, C78_text), layout does not matter (C78_layout). Missing: the whole protobuf language; three names and some constructs are refused (C78_names_violated, C78_constructs_violated), and option x = 1 in a message is read as a field (C78_option_violated)."
  },
  {
   "property": "C79",
   "status": "partial",
   "theorems": [
    "Verif.Props.C79_read_partial",
    "Verif.Props.C79_sound_partial",
    "Verif.Props.C79_directives",
    "Verif.Props.C79_layout",
    "Verif.Props.C79_wire_partial"
   ],
   "note": "Directives (C79_directives) and independence of layout (C79_layout) are proved for all texts. Missing: constants written as several string literals are not put together (C48_concat_violated), values that are not UTF-8 are not modelled (SimpleConst in C79_read_partial, C79_sound_partial); C79_wire_partial has the hypotheses of C75 and reserved ranges in decimal."
  },
  {
   "property": "C80",
   "status": "proved",
   "theorems": [
    "Verif.Props.C80_consts",
    "Verif.Props.C80_consts_nested",
    "Verif.Props.C80_tables",
    "Verif.Props.C80_unknown",
    "Verif.Props.C80_messages",
    "Verif.Props.C80_values"
   ],
   "note": "on the generated declarations; which directives and options a declaration has is settled by C79 and C75"
  },
  {
   "property": "C81",
   "status": "partial",
   "theorems": [
    "Verif.Props.C81_compiles",
    "Verif.Props.C81_legal_partial",
    "Verif.Props.C81_pointers_partial",
    "Verif.Props.C81_recursive_violated"
   ],
   "note": "exact: legal iff no message leads to itself through fields held by value (C81_legal_partial), for files as in C60 with distinct names; the generator does not refuse messages that do (C81_recursive_violated). C81_compiles shows that the hypothesis Compiles of C56, C57, C75 can be met exactly for legal types; C94 derives Compiles from the generated text"
  },
  {
   "property": "C82",
   "status": "proved",
   "theorems": [
    "Verif.Props.C82_lexer",
    "Verif.Props.C82_written",
    "Verif.Props.C82_history",
    "Verif.Props.C82_typed",
    "Verif.Props.C82_cache",
    "Verif.Props.C82_comparison_violated",
    "Verif.Props.C82_no_collision"
   ],
   "note": "C82_lexer for all texts and histories: the simulator on the deserialized automaton = the lexer model of C77; C82_written for texts made of lexical elements; C82_history; C82_typed; C82_cache (at most 232 states). The states of the determinised automaton are a certificate (Table.lean) whose rows the kernel checks against closure/reach of the model for every interval of characters. C82_comparison_violated: the comparison of configurations does not compare them; C82_no_collision: no hash collision for this automaton."
  },
  {
   "property": "C83",
   "status": "proved",
   "theorems": [
    "Verif.Props.C83_sound",
    "Verif.Props.C83_complete",
    "Verif.Props.C83_rejects",
    "Verif.Props.C83_tree",
    "Verif.Props.C83_reads",
    "Verif.Props.C83_steps",
    "Verif.Props.C83_predictable",
    "Verif.Props.C83_text"
   ],
   "note": "C83_sound, C83_rejects and C83_steps for any predictor; C83_complete for predictors that name an alternative which can go on (Right); C83_tree for those that name the first such (First); C83_reads and C83_text for both; C83_predictable: such predictors exist. The predictor is a parameter here; C84 proves Right and First of AdaptivePredict."
  },
  {
   "property": "C84",
   "status": "proved",
   "theorems": [
    "Verif.Props.C84_predicts",
    "Verif.Props.C84_independent",
    "Verif.Props.C84_learns",
    "Verif.Props.C84_reads",
    "Verif.Props.C84_afterwards",
    "Verif.Props.C84_history",
    "Verif.Props.C84_rejects",
    "Verif.Props.C84_text"
   ],
   "note": "C84_predicts: the first alternative that leads to the end, from any Warm cache; C84_independent, C84_history: results do not depend on the cache; C84_learns: the first simulation never fails; C84_reads, C84_rejects, C84_afterwards, C84_text: the whole parser. The theorems of C83 hold for these predictions without assumption. Locks and the cache of merged contexts are left out; predictions of different goroutines are taken one after another."
  },
  {
   "property": "C85",
   "status": "proved",
   "theorems": [
    "Verif.Props.C85_terminates",
    "Verif.Props.C85_parser",
    "Verif.Props.C85_input",
    "Verif.Props.C85_files",
    "Verif.Props.C85_utf8",
    "Verif.Props.C85_texts",
    "Verif.Props.C85_wire_partial"
   ],
   "note": "C85_terminates: with 30 levels per token nothing changes any more, for any predictor; C85_parser: then the shared parser equals the grammar, as an equation; C85_input, C85_files: reading from bytes with any caches equals readText of C79; C85_texts, C85_wire_partial carry C72-C75 and C79 over to bytes and the lexer and parser that are run (with the hypotheses of C79_wire_partial). After a syntax error the program ends; ANTLR's recovery until then is not modelled."
  },
  {
   "property": "C86",
   "status": "partial",
   "theorems": [
    "Verif.Props.C86_final",
    "Verif.Props.C86_prefix",
    "Verif.Props.C86_boundary",
    "Verif.Props.C86_whole_partial",
    "Verif.Props.C86_hopeless_violated",
    "Verif.Props.C86_entry_violated"
   ],
   "note": "C86_final and C86_prefix hold for every environment and argument, typed or not (a panic or type confusion is final as well); C86_boundary and C86_whole_partial need a well-formed schema and a typed target. The last part is false for entries of maps with booleans that lack the key or the value (C86_entry_violated) and proved for all other input (C86_whole_partial, on Spec/Whole.lean). io.ErrUnexpectedEOF does not mean that more input can help (C86_hopeless_violated). The error values are those of Model/GoErrors.lean; their texts are not modelled."
  },
  {
   "property": "C87",
   "status": "proved",
   "theorems": [
    "Verif.Props.C87_content",
    "Verif.Props.C87_allocs"
   ],
   "note": "C87_content is about what is reachable through lengths; the spare capacity of lists (ReallocSlice doubles) and of the storage for unknown fields (append) is not counted. C87_allocs counts the requests for memory of the decoder on memory with sharing, not the chunks of the arena that serve them nor the growth of Go maps inside the runtime."
  },
  {
   "property": "C88",
   "status": "proved",
   "theorems": [
    "Verif.Props.C88_accesses",
    "Verif.Props.C88_beside",
    "Verif.Props.C88_results",
    "Verif.Props.C88_returns",
    "Verif.Props.C88_no_race",
    "Verif.Props.C88_untouched"
   ],
   "note": "A step reads or writes one block of memory. The pools of decoders and of temporary map variables are trusted to hand an object to one goroutine at a time (sync.Pool), and the cache of types is the subject of C32/C33. C88_beside allows the other goroutines to run any program that keeps to its own memory."
  },
  {
   "property": "C89",
   "status": "proved",
   "theorems": [
    "Verif.Props.C89_append",
    "Verif.Props.C89_frame",
    "Verif.Props.C89_accesses",
    "Verif.Props.C89_marshal",
    "Verif.Props.C89_order",
    "Verif.Props.C89_shown"
   ],
   "note": "The buffer must not be a part of the message (AppendCall.apart); an example shows that the claim is false otherwise. A helper of package wire writes its output at once; a call sees one order per map."
  },
  {
   "property": "C90",
   "status": "proved",
   "theorems": [
    "Verif.Props.C90_size",
    "Verif.Props.C90_accesses",
    "Verif.Props.C90_marshal"
   ],
   "note": "A call sees one order per map."
  },
  {
   "property": "C91",
   "status": "proved",
   "theorems": [
    "Verif.Props.C91_beside",
    "Verif.Props.C91_results",
    "Verif.Props.C91_returns",
    "Verif.Props.C91_no_race",
    "Verif.Props.C91_untouched",
    "Verif.Props.C91_message"
   ],
   "note": "Steps are accesses to whole blocks; sync.Pool and the type cache are trusted or modelled elsewhere (Model/TypeCache.lean). The result is assigned to a variable by one more step. An example shows the race between Size and Unmarshal on one message."
  },
  {
   "property": "C92",
   "status": "partial",
   "theorems": [
    "Verif.Props.C92_left",
    "Verif.Props.C92_typed",
    "Verif.Props.C92_success",
    "Verif.Props.C92_prefix",
    "Verif.Props.C92_keeps",
    "Verif.Props.C92_initialised_partial",
    "Verif.Props.C92_initialised_violated"
   ],
   "note": "All but the last sentence is proved for all message types. The last sentence is false of the code (C92_initialised_violated, finding 41); it is proved for message types without lists of scalars, optional numbers and numbers in oneofs (C92_initialised_partial)."
  },
  {
   "property": "C93",
   "status": "proved",
   "theorems": [
    "Verif.Props.C93_result",
    "Verif.Props.C93_history"
   ],
   "note": "The decoder is modelled with the pooled variables as memory: they have addresses, Get takes one out of its pool and Put gives it back, and the entry stored in a map is read back from them at the end. Before each Get other goroutines may do anything with the pools and with variables that this call is not using (Others), and sync.Pool may return any variable present or a new one. C93_result: the result is that of the decoder without pools, the variables in use by others are not touched, and the pools stay in order; C93_history: sequences of calls. PlainMaps: key and value types are those of protobuf maps (message types with ordinary fields satisfy it, regular_plainMaps). The caches of types, the other state shared by calls, are the subject of C33; the arena that of C31. Not modelled: the value variable is written when the value has been decoded, not piece by piece."
  },
  {
   "property": "C94",
   "status": "partial",
   "theorems": [
    "Verif.Props.C94_read_partial",
    "Verif.Props.C94_compiles_partial",
    "Verif.Props.C94_accepted_partial",
    "Verif.Props.C94_accepts",
    "Verif.Props.C94_wire_partial"
   ],
   "note": "Proved for files within Presentable: import paths that end with the name of the package, distinct package names among the imports of a file, comments and arguments that can stand in a Go file (other files do not compile or mean another package: C58, C61, C76). That names are identifiers and types are found follows from acceptance (C94_accepts). Missing besides: fields of types that are not generated (C60) and the conditions of C79 on the proto files (C94_wire_partial). The bodies of getters and String methods are the subject of C57 and C80"
  },
  {
   "property": "C95",
   "status": "partial",
   "theorems": [
    "Verif.Props.C95_search",
    "Verif.Props.C95_first",
    "Verif.Props.C95_cases",
    "Verif.Props.C95_silent_violated",
    "Verif.Props.C95_search_violated"
   ],
   "note": "C95_search holds for all values in which a field OneofWrappers is a []any (Tidy); C95_cases for all accepted types that describe their oneofs. The last part is false of the code: a oneof whose description is missing or out of reach is accepted and never written (C95_silent_violated, C95_search_violated). The content of a described case is the subject of C26 and C37."
  },
  {
   "property": "C96",
   "status": "proved",
   "theorems": [
    "Verif.Props.C96_read",
    "Verif.Props.C96_fresh",
    "Verif.Props.C96_stored"
   ],
   "note": "C96_read for all pairs of schemas related by Older (Spec/Older.lean), all inputs and all related targets; C96_fresh for new variables; C96_stored for the unknown fields. Wrapper types of oneofs have the same number in both schemas, which is a matter of naming."
  },
  {
   "property": "C97",
   "status": "proved",
   "theorems": [
    "Verif.Props.C97_relay",
    "Verif.Props.C97_byValue_violated",
    "Verif.Props.C97_newCase_violated"
   ],
   "note": "C97_relay for all pairs of schemas related by Relays (Spec/Older.lean), all accepted inputs and all orders of map entries; l = true covers messages with oneofs set to default values. That Marshal succeeds is a premise: messages nested through maps beyond the depth limit are refused (C20, C21). C97_byValue_violated and C97_newCase_violated show that two of the conditions are needed: messages held by value lose unknown fields when they arrive in two records, and a case unknown to the older program is written last and wins."
  },
  {
   "property": "C98",
   "status": "proved",
   "theorems": [
    "Verif.Props.C98_read"
   ],
   "note": "C98_read for all pairs of schemas related by Grows (Spec/Older.lean), which does not ask for storage of unknown fields. The message the newer program reads is Same as one that is Kept (equal in the known fields) and Bare (nothing else); the existence of that message is part of the theorem."
  },
  {
   "property": "C99",
   "status": "partial",
   "theorems": [
    "Verif.Props.C99_cut",
    "Verif.Props.C99_input_partial",
    "Verif.Props.C99_fresh_partial",
    "Verif.Props.C99_accept_partial",
    "Verif.Props.C99_moved",
    "Verif.Props.C99_bool_violated",
    "Verif.Props.C99_values",
    "Verif.Props.C99_bytes",
    "Verif.Props.C99_read"
   ],
   "note": "(a) C99_bytes and C99_read, for all pairs of schemas related by Retyped (Spec/Retyped.lean); C99_values says what widening does to values. (b) C99_input_partial, C99_fresh_partial and C99_accept_partial, for all pairs related by Narrowed (Spec/Narrowed.lean) and all inputs; C99_cut says how the values are related, C99_moved what happens to a field that is moved into a oneof. Key types of maps are not changed, and a map with boolean keys keeps its value type. Not true of the code, and shown by C99_bool_violated: an int32 that is 2 is read as false by a program with a bool field."
  },
  {
   "property": "C100",
   "status": "partial",
   "theorems": [
    "Verif.Props.C100_injective_partial",
    "Verif.Props.C100_same",
    "Verif.Props.C100_compare_partial",
    "Verif.Props.C100_exact",
    "Verif.Props.C100_oneof_violated"
   ],
   "note": "C100_injective_partial needs that no oneof is set to a default value (C100_oneof_violated: such a oneof and an unset one give the same bytes), that stored unknown bytes are whole records, and that the messages are not nested more deeply than Unmarshal allows. C100_same is the converse, for types that do not hold messages by value in Go structs of size 1, 4 or 8 (C51_inline_violated). C100_compare_partial puts both together; C100_exact, without the condition on oneofs, says exactly when the bytes are the same."
  },
  {
   "property": "C101",
   "status": "partial",
   "theorems": [
    "Verif.Props.C101_field_partial",
    "Verif.Props.C101_list_partial",
    "Verif.Props.C101_oneof_partial",
    "Verif.Props.C101_write_partial",
    "Verif.Props.C101_maps_violated",
    "Verif.Props.C101_empty_violated"
   ],
   "note": "Reading (C101_field_partial, C101_list_partial) is proved for types without maps of messages: a message in a map may be nested more deeply than the same message elsewhere (C21), so that the bytes of the field alone exceed the limit (C101_maps_violated: for the other types it is false). Members of oneofs: C101_oneof_partial. Writing (C101_write_partial) includes maps; the bytes in a field that is not repeated must not be empty, because empty bytes are left out but an empty message is not (C101_empty_violated; protobuf has the same rule)."
  },
  {
   "property": "C102",
   "status": "partial",
   "theorems": [
    "Verif.Props.C102_bytes",
    "Verif.Props.C102_read_partial",
    "Verif.Props.C102_input",
    "Verif.Props.C102_fresh",
    "Verif.Props.C102_relay",
    "Verif.Props.C102_byValue_violated"
   ],
   "note": "Bytes and sizes (C102_bytes): for all messages whose encoding fits the address space, for types that hold single messages by pointer. Any input (C102_input, C102_fresh): into any messages with the same content, for all types, with the same members in the same oneofs. Reading any input and writing it again (C102_relay): the same bytes, for types that hold single messages by pointer and keep unknown fields in the same messages. Reading what the other program wrote (C102_read_partial), with wider types or changed oneofs, has the conditions of C01: oneofs set to default values, stored unknown bytes that are no records, and messages nested more deeply than Unmarshal allows are excluded. Same content is the relation Wide of C99. Not true of the code for messages held by value (C102_byValue_violated): whether an empty one is written depends on the size of its Go type."
  }
 ]
}