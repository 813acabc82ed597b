{
 "claims": [
  {
   "property": "C01",
   "status": "proved",
   "theorems": [
    "C01_read_value"
   ],
   "note": ""
  },
  {
   "property": "C02",
   "status": "proved",
   "theorems": [
    "C02_read_errors"
   ],
   "note": ""
  },
  {
   "property": "C03",
   "status": "partial",
   "theorems": [
    "C03_failed_read_partial",
    "C03_failed_read_moves",
    "C03_short_position"
   ],
   "note": "False as stated: a Short read discards the rest of the current block (C03_failed_read_moves). Proved: Eof/InvalidReadSize change nothing, bounds on the move, and the exact place a Short read moves to."
  },
  {
   "property": "C04",
   "status": "proved",
   "theorems": [
    "C04_seekBit_iff",
    "C04_seekBit_fails",
    "C04_seekBit_forgets",
    "C04_seekBit_then_read"
   ],
   "note": ""
  },
  {
   "property": "C05",
   "status": "partial",
   "theorems": [
    "C05_seek_exact_partial",
    "C05_position",
    "C05_panics_iff",
    "C05_seek_panics"
   ],
   "note": "Exact in release builds; in debug builds a relative seek whose i64 sum overflows panics (C05_seek_panics), and no other (C05_panics_iff)."
  },
  {
   "property": "C06",
   "status": "partial",
   "theorems": [
    "C06_align32_partial",
    "C06_align32_bounds",
    "C06_align32_misaligns"
   ],
   "note": "False for buffers or byte seeks that are not multiples of 4 bytes (C06_align32_misaligns); proved for word-aligned histories, which is what the bitstream reader produces."
  },
  {
   "property": "C07",
   "status": "proved",
   "theorems": [
    "C07_bounds",
    "C07_buffer_fixed"
   ],
   "note": ""
  },
  {
   "property": "C08",
   "status": "proved",
   "theorems": [
    "C08_limit_is_prefix",
    "C08_suffix_invisible"
   ],
   "note": ""
  },
  {
   "property": "C09",
   "status": "proved",
   "theorems": [
    "C09_read_split"
   ],
   "note": ""
  },
  {
   "property": "C10",
   "status": "partial",
   "theorems": [
    "C10_readAs",
    "C10_readExact_partial",
    "C10_readExact_wide_never",
    "C10_readExact_signed",
    "C10_readExact_signed_fails"
   ],
   "note": "read_as is exact; read_exact is false for 64-bit types (always fails) and signed types."
  },
  {
   "property": "C11",
   "status": "proved",
   "theorems": [
    "C11_vbr_roundtrip"
   ],
   "note": ""
  },
  {
   "property": "C12",
   "status": "partial",
   "theorems": [
    "C12_vbr_total",
    "C12_vbr_width",
    "C12_vbr_chunks_partial",
    "C12_vbr_overlong",
    "C12_vbr_panics",
    "C12_vbr_wrong_value",
    "C12_vbr_exact",
    "C12_vbr_fails"
   ],
   "note": "Terminates always; false beyond a shift of 64: panics in debug, wrong value in release. C12_vbr_exact and C12_vbr_fails say what happens on all bits."
  },
  {
   "property": "C13",
   "status": "proved",
   "theorems": [
    "C13_svbr_roundtrip",
    "C13_svbr_total",
    "C13_svbr_exact"
   ],
   "note": ""
  },
  {
   "property": "C14",
   "status": "proved",
   "theorems": [
    "C14_definition_roundtrip"
   ],
   "note": ""
  },
  {
   "property": "C15",
   "status": "partial",
   "theorems": [
    "C15_accepted_wellformed",
    "C15_exact",
    "C15_fails",
    "C15_no_panic_partial",
    "C15_debug_panic"
   ],
   "note": "C15_exact and C15_fails determine the outcome for all bits (cursors on words). Accepted abbreviations are well formed for every input. No panic in release builds; in debug builds two arithmetic overflows panic (C15_debug_panic)."
  },
  {
   "property": "C16",
   "status": "proved",
   "theorems": [
    "C16_abbreviated_roundtrip",
    "C16_abbreviated_record"
   ],
   "note": ""
  },
  {
   "property": "C17",
   "status": "proved",
   "theorems": [
    "C17_unabbreviated_roundtrip"
   ],
   "note": ""
  },
  {
   "property": "C18",
   "status": "proved",
   "theorems": [
    "C18_stream_roundtrip",
    "C18_entries_meaning",
    "C18_stream_roundtrip_from",
    "C18_prefix_roundtrip"
   ],
   "note": ""
  },
  {
   "property": "C19",
   "status": "proved",
   "theorems": [
    "C19_encoding_irrelevant"
   ],
   "note": ""
  },
  {
   "property": "C20",
   "status": "proved",
   "theorems": [
    "C20_nesting",
    "C20_no_excess_ends",
    "C20_truncation_unnoticed"
   ],
   "note": ""
  },
  {
   "property": "C21",
   "status": "proved",
   "theorems": [
    "C21_context_rules",
    "C21_enter",
    "C21_leave",
    "C21_bad_abbrev"
   ],
   "note": ""
  },
  {
   "property": "C22",
   "status": "proved",
   "theorems": [
    "C22_progress",
    "C22_entries_bounded"
   ],
   "note": ""
  },
  {
   "property": "C23",
   "status": "partial",
   "theorems": [
    "C23_open_no_panic",
    "C23_panic_sites_partial",
    "C23_panics"
   ],
   "note": "False as stated: five panic sites, each reached by a concrete stream (C23_panics). Proved: opening never panics and iteration panics nowhere else."
  },
  {
   "property": "C24",
   "status": "partial",
   "theorems": [
    "C24_none_iff",
    "C24_loop_ends_partial",
    "C24_stuck",
    "C24_endless_errors"
   ],
   "note": "None iff consumed is proved. A skip-errors loop ends except inside a block announcing an id width of 64 or more, where it never ends (C24_endless_errors)."
  },
  {
   "property": "C25",
   "status": "proved",
   "theorems": [
    "C25_raw",
    "C25_wrapped",
    "C25_detect"
   ],
   "note": ""
  },
  {
   "property": "C26",
   "status": "partial",
   "theorems": [
    "C26_window",
    "C26_transparent_partial",
    "C26_offset_cuts"
   ],
   "note": "Proved for streams right after the header and, in general, for the window the code uses; false for offsets other than 20, where that window ends too early (C26_offset_cuts)."
  },
  {
   "property": "C27",
   "status": "proved",
   "theorems": [
    "C27_blockinfo_hidden",
    "C27_blockinfo_round",
    "C27_definitions_hidden"
   ],
   "note": ""
  },
  {
   "property": "C33",
   "status": "partial",
   "theorems": [
    "C33_from_shift",
    "C33_from_byte_align",
    "C33_from_bit_align",
    "C33_made",
    "C33_byte_align",
    "C33_bit_align_partial",
    "C33_bit_align_overflows",
    "C33_maybe_align"
   ],
   "note": "Acceptance, round trips and the optional encoding are exact for all inputs. bit_align is proved for shifts up to 60; for 61 to 63 it overflows (proved: panic in debug, 0 in release), so 'without overflow' is false."
  },
  {
   "property": "C34",
   "status": "proved",
   "theorems": [
    "C34_sorted_map",
    "C34_entries",
    "C34_default_valid"
   ],
   "note": ""
  },
  {
   "property": "C35",
   "status": "partial",
   "theorems": [
    "C35_sorted_last_partial",
    "C35_consistent_partial",
    "C35_duplicates"
   ],
   "note": "The table is sorted and its last entry for an address space is the last update; one entry per address space is false as stated (C35_duplicates) and proved when no address space is given two different specs."
  },
  {
   "property": "C36",
   "status": "partial",
   "theorems": [
    "C36_type_new",
    "C36_pointer_new",
    "C36_type_parsed",
    "C36_pointer_parsed_partial",
    "C36_pointer_parse_unchecked",
    "C36_parse_returns_partial",
    "C36_parse_panics"
   ],
   "note": "Type specs: proved. Pointer specs: the parser skips the preferred >= ABI check (witness), and both parsers panic exactly on texts whose first character is not ASCII."
  },
  {
   "property": "C37",
   "status": "proved",
   "theorems": [
    "C37_returns",
    "C37_non_ascii",
    "C37_left_to_right",
    "C37_every_text",
    "C37_compose",
    "C37_changes_only",
    "C37_last_wins",
    "C37_default",
    "C37_default_text",
    "C37_tables",
    "C37_aggregate_constant",
    "C37_duplicate_pointer_entry"
   ],
   "note": "The aggregate_alignment field is never changed by any text (C37_aggregate_constant)."
  },
  {
   "property": "C38",
   "status": "proved",
   "theorems": [
    "C38_spec",
    "C38_round_trip"
   ],
   "note": ""
  },
  {
   "property": "C28",
   "status": "proved",
   "theorems": [
    "C28_unroll",
    "C28_complete",
    "C28_all_complete",
    "C28_terminates",
    "C28_truncated",
    "C28_only_blocks_at_top"
   ],
   "note": "The module, string table and symbol table mapping that follows unrolling is in C51."
  },
  {
   "property": "C29",
   "status": "proved",
   "theorems": [
    "C28_unroll",
    "C29_pairing",
    "C29_errors",
    "C29_tables"
   ],
   "note": ""
  },
  {
   "property": "C30",
   "status": "proved",
   "theorems": [
    "C30_by_code",
    "C30_one",
    "C30_exactly_one",
    "C30_one_or_none",
    "C30_by_id",
    "C30_blocks"
   ],
   "note": ""
  },
  {
   "property": "C31",
   "status": "partial",
   "theorems": [
    "C31_blob_partial",
    "C31_string_partial",
    "C31_errors",
    "C31_single_byte_rejected",
    "C31_empty_record"
   ],
   "note": "False as stated: the last field alone is always rejected (C31_single_byte_rejected) and a record without fields panics (C31_empty_record). Proved exactly for every record with fields."
  },
  {
   "property": "C32",
   "status": "partial",
   "theorems": [
    "C32_lookup_partial",
    "C32_overflow_panics",
    "C32_get",
    "C32_read_name"
   ],
   "note": "Proved for all references whose end does not overflow 64 bits; an overflowing one panics exactly when its offset is inside the table."
  },
  {
   "property": "C50",
   "status": "proved",
   "theorems": [
    "C50_decode",
    "C50_reservedBlockId",
    "C50_irBlockId",
    "C50_identificationCode",
    "C50_moduleCode",
    "C50_typeCode",
    "C50_strtabCode",
    "C50_symtabCode",
    "C50_attributeCode",
    "C50_functionCode",
    "C50_unaryOpcode",
    "C50_binaryOpcode",
    "C50_rmwOperation",
    "C50_visibility",
    "C50_dllStorageClass",
    "C50_callingConvention",
    "C50_attributeKind",
    "C50_attributeId",
    "C50_block_ids",
    "C50_linkage",
    "C50_thread_local",
    "C50_unnamed_addr",
    "C50_preemption"
   ],
   "note": "Every enumeration of bitcodes.rs, opcode.rs, attribute.rs and lib.rs against LLVM's numbering."
  },
  {
   "property": "C52",
   "status": "proved",
   "theorems": [
    "C52_strtab",
    "C52_symtab",
    "C52_identification",
    "C52_returns"
   ],
   "note": ""
  },
  {
   "property": "C39",
   "status": "proved",
   "theorems": [
    "C39_constructors",
    "C39_obtainable",
    "C39_table",
    "C39_rejections",
    "C39_byte_width",
    "C39_opaque_pointer_vector"
   ],
   "note": "The rules are the crate's documented ones; the one difference from LLVM (vectors of opaque pointers) is C39_opaque_pointer_vector."
  },
  {
   "property": "C40",
   "status": "partial",
   "theorems": [
    "C40_exact",
    "C40_faithful_partial",
    "C40_count",
    "C40_dangling",
    "C40_wellformed",
    "C40_unique",
    "C40_get",
    "C40_truncated_width",
    "C40_capacity_panics"
   ],
   "note": "C40_exact is an equivalence for every block; what it says differs from the statement for named structures directly after a structure (see C42), one-byte names, and integer widths of 2^32 and more, which are truncated (C40_truncated_width)."
  },
  {
   "property": "C41",
   "status": "partial",
   "theorems": [
    "C41_acyclic_partial",
    "C41_recursive_never_maps",
    "C41_recursive_diverges",
    "C41_linked_list"
   ],
   "note": "False as stated: recursive types make the mapping diverge (C41_recursive_diverges, C41_linked_list). Proved for tables without circles."
  },
  {
   "property": "C42",
   "status": "partial",
   "theorems": [
    "C42_names_partial",
    "C42_adjacent_rejected",
    "C42_named_kept_apart",
    "C42_short_name_rejected",
    "C42_merged",
    "C42_opaque_merged"
   ],
   "note": "False as stated: a named structure directly after a structure is rejected or merged, and one-byte names are rejected."
  },
  {
   "property": "C43",
   "status": "proved",
   "theorems": [
    "C43_exact",
    "C43_roundtrip",
    "C43_each_found",
    "C43_only",
    "C43_unique",
    "C43_enum_attribute",
    "C43_unknown_kind_rejected",
    "C43_errors"
   ],
   "note": "Both directions: exactly the blocks of group records map, and each group is found under its id. How the values of align, alignstack and vscale_range are read is the subject of C45."
  },
  {
   "property": "C44",
   "status": "partial",
   "theorems": [
    "C44_groups_panic_iff",
    "C44_groups_terminates",
    "C44_groups_return_partial",
    "C44_groups_panic",
    "C44_lists_panic_iff",
    "C44_lists_return_partial",
    "C44_lists_panic"
   ],
   "note": "False as stated: a group record cut off in the key of a key-value attribute panics, and so does a PARAMATTR record of the old format; these are proved to be the only cases."
  },
  {
   "property": "C45",
   "status": "partial",
   "theorems": [
    "C45_unpacks_partial",
    "C45_only_packed",
    "C45_vscale_swapped",
    "C45_vscale_unbounded",
    "C45_align_wrong",
    "C45_align_8",
    "C45_align_small"
   ],
   "note": "Proved for dereferenceable, dereferenceable_or_null and allocsize. False for vscale_range (swapped, and no upper bound reported as the lower bound) and for align and alignstack (bytes read as log2 + 1)."
  },
  {
   "property": "C46",
   "status": "partial",
   "theorems": [
    "C46_lists",
    "C46_exact",
    "C46_undefined",
    "C46_undefined_never",
    "C46_get",
    "C46_large_id"
   ],
   "note": "Exact for ids below 2^32; ids are taken modulo 2^32, so a reference to an undefined id of 2^32 or more may be accepted (C46_large_id)."
  },
  {
   "property": "C47",
   "status": "partial",
   "theorems": [
    "C47_outcome",
    "C47_refused",
    "C47_choice",
    "C47_unary"
   ],
   "note": "False as stated: no binary operator is ever constructed, since the type check requires a type that is floating-point and integer at once (C47_refused). C47_outcome gives the outcome for every opcode and type, C47_choice how the (unreachable) table of operators differs from LLVM."
  },
  {
   "property": "C48",
   "status": "partial",
   "theorems": [
    "C48_never_maps",
    "C48_panics_iff",
    "C48_returns_partial",
    "C48_ret_void_panics",
    "C48_files"
   ],
   "note": "False as stated: no function block ever maps (C48_never_maps) and valid ones panic; C48_panics_iff says exactly which."
  },
  {
   "property": "C49",
   "status": "partial",
   "theorems": [
    "C49_function",
    "C49_function_errors",
    "C49_function_returns_partial",
    "C49_alias",
    "C49_alias_errors",
    "C49_alias_returns_partial",
    "C49_comdat",
    "C49_comdat_errors",
    "C49_comdat_returns_partial",
    "C49_comdat_no_version",
    "C49_alignment_truncated",
    "C49_comdat_kinds_shifted",
    "C49_alias_layout_wrong"
   ],
   "note": "Exact (equivalence with a field-by-field specification, all errors explained, panics exactly on overflowing name ranges). Not as LLVM writes the records: alignment numbers are truncated to 8 bits, COMDAT kinds are numbered from 0 instead of 1, and alias fields are taken from the old layout."
  },
  {
   "property": "C51",
   "status": "partial",
   "theorems": [
    "C51_module",
    "C51_stream",
    "C51_bytes",
    "C51_written_partial"
   ],
   "note": "Exact for every file: mapping succeeds with a result if and only if the file is complete blocks that say just that. Not as stated for one-byte texts (rejected) and integer widths of 2^32 and more (truncated); recursive types make the mapping diverge (C41)."
  },
  {
   "property": "C53",
   "status": "partial",
   "theorems": [
    "C53_types",
    "C53_strtab",
    "C53_symtab",
    "C53_identification",
    "C53_lists",
    "C53_body_partial",
    "C53_module_partial",
    "C53_file_partial",
    "C53_operand_counterexample"
   ],
   "note": "Every error of every mapping is traced to a fault of the input, up to whole files. For type blocks C53_types is exact: each error is returned for that fault and no other, and the first fault is the one reported. Missing, because false: the error about the operand type of a binary operator, which is returned for every operator (C53_operand_counterexample)."
  },
  {
   "property": "C54",
   "status": "proved",
   "theorems": [
    "C54_record_size",
    "C54_total",
    "C54_bytes",
    "C54_amplified",
    "C54_squared"
   ],
   "note": "The square is reached (C54_squared). C54_amplified shows that the bound has to count all bits read so far, not those of the record."
  },
  {
   "property": "C55",
   "status": "proved",
   "theorems": [
    "C55_file",
    "C55_open",
    "C55_iterate",
    "C55_cursor",
    "C55_overflow_differs"
   ],
   "note": "The exception named in the statement is real: C55_overflow_differs is a file that a release build maps and on which a debug build panics."
  },
  {
   "property": "C56",
   "status": "proved",
   "theorems": [
    "C56_types",
    "C56_types_terminate",
    "C56_body",
    "C56_module",
    "C56_file",
    "C56_merged_structs",
    "C56_linked_list",
    "C56_function_panics"
   ],
   "note": "C56_file lists the causes. For type blocks C56_types is exact, and C56_types_terminate says which records can lead to a circle. Each is shown to occur by a concrete file (Props/StopCases). Running out of memory below the capacity limits, and the depth of the stack, are not modelled."
  },
  {
   "property": "C57",
   "status": "partial",
   "theorems": [
    "C57_align",
    "C57_align_bytes",
    "C57_address_space",
    "C57_aligned_type",
    "C57_aligned_type_order",
    "C57_type_spec",
    "C57_type_tables",
    "C57_pointer_spec_partial",
    "C57_pointer_spec_inconsistent"
   ],
   "note": "Lawful for alignments, address spaces, aligned types and type specs. False for pointer specs: cmp looks at the address space only while == compares all fields. == on type specs and tables ignores the alignments, so it does not mean that they say the same (C57_type_spec, C57_type_tables)."
  },
  {
   "property": "C58",
   "status": "proved",
   "theorems": [
    "C58_module",
    "C58_unseen",
    "C58_file",
    "C58_encoding",
    "C58_written"
   ],
   "note": "All outcomes are compared, also errors and panics. C58_encoding covers streams that end in the middle of a block or with an error."
  },
  {
   "property": "C59",
   "status": "proved",
   "theorems": [
    "C59_accepts",
    "C59_rejects",
    "C59_decides"
   ],
   "note": "The fault relations are exact, down to the message: an error is returned if and only if the text has that fault first. The grammar (Mapper/LayoutSpec) is that of the code, including what LLVM does not allow: ignored tails, plus signs, preferred alignments of pointers below the required ones."
  },
  {
   "property": "C60",
   "status": "partial",
   "theorems": [
    "C60_entries",
    "C60_magic_ignored",
    "C60_window",
    "C60_wrapped_partial",
    "C60_offset_cuts"
   ],
   "note": "Proved for all streams as far as it is true. False for wrappers that leave a gap between the header and the stream: C60_offset_cuts; the reason is that of C26."
  },
  {
   "property": "C61",
   "status": "proved",
   "theorems": [
    "C61_dump",
    "C61_written",
    "C61_faithful"
   ],
   "note": "Printing itself (standard output that cannot be written to), the command line and reading the file are not modelled. A stream that is cut inside a block is dumped without an error."
  },
  {
   "property": "C62",
   "status": "proved",
   "theorems": [
    "C62_tape",
    "C62_belt",
    "C62_history"
   ],
   "note": "The tape (Cursor/TapeSpec) gives no position after short reads, failed seek_bit and inexact align32; the tape fetched in pieces (Cursor/BeltSpec) does, so C62_belt determines every history."
  },
  {
   "property": "C63",
   "status": "proved",
   "theorems": [
    "C63_accepts",
    "C63_prefix",
    "C63_fails",
    "C63_wrapped",
    "C63_unambiguous",
    "C63_unambiguous_wrapped",
    "C63_written"
   ],
   "note": "The grammar (Bitstream/GrammarSpec) is that of the code: it has no constraint on padding, block lengths, superfluous chunks or unclosed blocks, and abbreviated records in BLOCKINFO are read and dropped. C63_wrapped is for every offset: padding in a wrapper goes by 64-bit pieces of the stream, the last of which may be short."
  },
  {
   "property": "C64",
   "status": "partial",
   "theorems": [
    "C64_advance_exact",
    "C64_advance_wrapped",
    "C64_advance_partial",
    "C64_advance_unbounded",
    "C64_unroll_exact",
    "C64_unroll_unbounded",
    "C64_types_exact",
    "C64_types_same",
    "C64_types_partial",
    "C64_types_unbounded"
   ],
   "note": "The statement is false for every limit (the three unbounded theorems). Proved: exactly how deep the calls nest for each input, and that the result does not depend on a limit that is not reached. The size of a stack frame is not modelled; for derived code that recurses see C89."
  },
  {
   "property": "C65",
   "status": "partial",
   "theorems": [
    "C65_copies",
    "C65_bound_partial",
    "C65_linear_partial",
    "C65_reached",
    "C65_doubles"
   ],
   "note": "The statement is false (C65_doubles). Proved: exact sizes in terms of the table, the best bounds on height and size, and that they are reached. Size is counted in Type values, not bytes."
  },
  {
   "property": "C66",
   "status": "proved",
   "theorems": [
    "C66_fails",
    "C66_wrapped",
    "C66_cases",
    "C66_verdict"
   ],
   "note": "The specification (Bitstream/FaultSpec) names errors and places of panics as the code does. C66_verdict is for streams however they were opened."
  },
  {
   "property": "C67",
   "status": "proved",
   "theorems": [
    "C67_strtab",
    "C67_symtab",
    "C67_identification",
    "C67_layout",
    "C67_types",
    "C67_groups",
    "C67_lists",
    "C67_function",
    "C67_alias",
    "C67_comdat",
    "C67_instruction",
    "C67_body",
    "C67_module",
    "C67_file",
    "C67_accepts",
    "C67_unique",
    "C67_target"
   ],
   "note": "Gives both directions of what C53 and C56 state in one direction."
  },
  {
   "property": "C68",
   "status": "proved",
   "theorems": [
    "C68_container",
    "C68_bad",
    "C68_good",
    "C68_decided",
    "C68_dump"
   ],
   "note": "Every wrapper that can be opened is covered, also with an offset that is not a multiple of 4."
  },
  {
   "property": "C69",
   "status": "proved",
   "theorems": [
    "C69_maps",
    "C69_fails",
    "C69_dumps",
    "C69_writes",
    "C69_all"
   ],
   "note": "C69_maps and C69_fails are C51 and C67 without any assumption on how the entries of the stream group into blocks."
  },
  {
   "property": "C70",
   "status": "proved",
   "theorems": [
    "C70_only",
    "C70_every"
   ],
   "note": "The module in the plain file for C70_every has an empty type table and no functions, as these do not show in the result."
  },
  {
   "property": "C71",
   "status": "proved",
   "theorems": [
    "C71_only",
    "C71_every"
   ],
   "note": "C71_every shows that a structure with a name right after another structure, which is refused in LLVM's own encoding (C41), can be had by declaring an anonymous one first."
  },
  {
   "property": "C72",
   "status": "partial",
   "theorems": [
    "C72_shift",
    "C72_shift_honest",
    "C72_byte_align",
    "C72_bit_align_partial",
    "C72_bit_align_misquotes",
    "C72_maybe_align",
    "C72_width",
    "C72_width_honest_partial",
    "C72_width_zero",
    "C72_address_space",
    "C72_address_space_honest",
    "C72_type_new",
    "C72_type_new_honest_partial",
    "C72_type_new_preferred",
    "C72_pointer_new",
    "C72_string_index",
    "C72_string_honest_partial",
    "C72_string_last",
    "C72_function_honest",
    "C72_function_short",
    "C72_function_section_misquoted",
    "C72_alias_honest",
    "C72_alias_short",
    "C72_comdat_short",
    "C72_comdat_honest_partial",
    "C72_comdat_long",
    "C72_groups_honest",
    "C72_group_short",
    "C72_group_swapped",
    "C72_body"
   ],
   "note": "The statement is false. Proved: exactly when each call is refused and with which text, and exactly when the text is true; the false ones are width 0, a preferred alignment that alone is too large, the index of the last field, COMDAT records with more than 3 fields, and the quoted numbers of from_bit_align, of section and GC indices and of attribute groups that are cut off."
  },
  {
   "property": "C73",
   "status": "proved",
   "theorems": [
    "C73_read",
    "C73_open",
    "C73_open_raw"
   ],
   "note": "Both directions: only these errors, and each of them for some input."
  },
  {
   "property": "C74",
   "status": "proved",
   "theorems": [
    "C74_only",
    "C74_each",
    "C74_stops",
    "C74_never"
   ],
   "note": "Only these errors for every file up to 2^61 bytes, and each of them (holding up to 2^20 of anything) for some file; panics and endless loops exactly."
  },
  {
   "property": "C75",
   "status": "proved",
   "theorems": [
    "C75_prints",
    "C75_ends",
    "C75_quoted",
    "C75_literal",
    "C75_determines",
    "C75_same"
   ],
   "note": "For every choice of the characters that are printed as they are."
  },
  {
   "property": "C76",
   "status": "partial",
   "theorems": [
    "C76_result_partial",
    "C76_copies",
    "C76_text",
    "C76_types",
    "C76_heights_partial",
    "C76_text_partial"
   ],
   "note": "The statement is false: results and print-outs can be as large as the square of the file (C76_copies, C76_text), and types exponential in it (C76_types). Proved instead: neither the result nor the print-out is ever larger than a square, and the number of types and their heights are bounded by the number of bits."
  },
  {
   "property": "C77",
   "status": "proved",
   "theorems": [
    "C77_layout",
    "C77_reading",
    "C77_messages",
    "C77_type",
    "C77_fails",
    "C77_report",
    "C77_determines",
    "C77_dump",
    "C77_dump_determines"
   ],
   "note": "For every choice of the two parameters (printable characters, the text of the standard library about UTF-8), which may differ between the two runs."
  },
  {
   "property": "C78",
   "status": "partial",
   "theorems": [
    "C78_exact",
    "C78_partial",
    "C78_dump",
    "C78_false"
   ],
   "note": "The statement is false: every control character of ASCII can be had in a report by way of the datalayout text. Proved: exactly which files have which control characters in their reports; none for any other error, and none for the program that prints streams."
  },
  {
   "property": "C79",
   "status": "partial",
   "theorems": [
    "C79_exact",
    "C79_join_partial",
    "C79_headers",
    "C79_symtab_false",
    "C79_symtab_instance",
    "C79_blockinfo_false"
   ],
   "note": "The statement is false: symbol tables of the second file reach back into the first (C79_symtab_false), and abbreviations registered by the first are in force in the second (C79_blockinfo_false). Proved instead: the exact result for a first file that registers nothing (C79_exact), and the statement itself if its modules have symbol tables (C79_join_partial); there a module of the second file without identification is reported as adjacent to the last of the first. A second magic number is always refused (C79_headers)."
  },
  {
   "property": "C80",
   "status": "partial",
   "theorems": [
    "C80_cut_partial",
    "C80_complete",
    "C80_wrapped",
    "C80_entries",
    "C80_false"
   ],
   "note": "The statement is false for symbol tables behind the cut, whose modules map without them (C80_false). Proved: that is the only difference (C80_cut_partial), none if the modules have symbol tables (C80_complete); the rest as stated (C80_wrapped, C80_entries)."
  },
  {
   "property": "C81",
   "status": "partial",
   "theorems": [
    "C81_capacity_reader",
    "C81_capacity_file",
    "C81_read_partial",
    "C81_maps_partial",
    "C81_announced",
    "C81_unbounded"
   ],
   "note": "The statement is false for calls that fail and files that are refused: the number is trusted before anything of what it announces is read (C81_announced), and files of 24, 84 and 96 bytes ask for 2^63 - 8 bytes at once (C81_unbounded). Proved: the bound for every call that gives an item or the end, and for all but the last request of any call (C81_read_partial); for every file that maps (C81_maps_partial); and exactly when room runs out (C81_capacity_reader, C81_capacity_file)."
  },
  {
   "property": "C82",
   "status": "partial",
   "theorems": [
    "C82_reads",
    "C82_maps",
    "C82_item",
    "C82_length",
    "C82_padding_end",
    "C82_padding_start",
    "C82_written_partial",
    "C82_lengths_false"
   ],
   "note": "The first sentence is false of streams in general: lengths are reported unchecked (C82_lengths_false). Proved: it holds of every stream as it should be written, for every block at any depth (C82_written_partial); the second sentence as stated, with the lengths and the paddings of blocks as instances."
  },
  {
   "property": "C83",
   "status": "proved",
   "theorems": [
    "C83_reads",
    "C83_fails",
    "C83_wrapped_reads",
    "C83_wrapped_fails",
    "C83_locates",
    "C83_blocks",
    "C83_ordered"
   ],
   "note": "Messages are values with the line that logs them; how they are formatted is not modelled, nor is the log of the mapper."
  },
  {
   "property": "C84",
   "status": "partial",
   "theorems": [
    "C84_registered",
    "C84_open",
    "C84_depth",
    "C84_total_partial",
    "C84_unbounded"
   ],
   "note": "The statement is false: every open block keeps its own copy of what is registered for it, so what is kept can be more than any multiple of the input (C84_unbounded). Proved: what is registered is proportional, the open blocks keep at most the bits read so far each, there is one open block for 44 bits, and so everything together is at most the square of what has been read."
  },
  {
   "property": "C85",
   "status": "partial",
   "theorems": [
    "C85_copies",
    "C85_groups",
    "C85_bound_partial",
    "C85_cubed"
   ],
   "note": "The statement is false: lists have copies of their groups, and can be as large as the cube of the file (C85_cubed). Proved: the exact size of a list, the statement for groups, and the cube as a bound for all files."
  },
  {
   "property": "C86",
   "status": "proved",
   "theorems": [
    "C86_same",
    "C86_types",
    "C86_types_fail",
    "C86_types_endless",
    "C86_attributes",
    "C86_module",
    "C86_module_ends",
    "C86_file",
    "C86_unread",
    "C86_file_ends"
   ],
   "note": "A stream of at most 2^61 bytes. The text around the values in a message, and their formatting, are not modelled."
  },
  {
   "property": "C87",
   "status": "proved",
   "theorems": [
    "C87_same",
    "C87_call",
    "C87_calls",
    "C87_all",
    "C87_fields",
    "C87_bits",
    "C87_copies",
    "C87_squared"
   ],
   "note": "Steps are the reads of the cursor, the operands interpreted or copied and the rounds of advance; what a step costs on a machine, allocation and look-ups in the map of registered abbreviations are not modelled."
  },
  {
   "property": "C88",
   "status": "partial",
   "theorems": [
    "C88_held_partial",
    "C88_unshared_partial",
    "C88_cubed"
   ],
   "note": "The statement is false: modules that share a table have a copy of its block each, and can hold the cube of the file (C88_cubed). Proved: the statement for files that do not share tables, for all that is not in tables, and the cube as a bound for all files."
  },
  {
   "property": "C89",
   "status": "proved",
   "theorems": [
    "C89_blocks",
    "C89_bound",
    "C89_unbounded",
    "C89_types",
    "C89_types_unbounded"
   ],
   "note": "That dropping, cloning and printing call themselves once for each level is read off the derived implementations; the theorems are about the number of levels."
  },
  {
   "property": "C90",
   "status": "partial",
   "theorems": [
    "C90_rules_partial",
    "C90_tables_partial",
    "C90_refuted",
    "C90_files",
    "C90_files_refuted"
   ],
   "note": "The statement is false (C90_refuted, and for files C90_files_refuted): vectors of opaque pointers are rejected and empty vectors accepted. Proved: there is no other difference, at any depth, and which tables of types that LLVM allows map; and that no file with a vector of opaque pointers among its types maps (C90_files)."
  },
  {
   "property": "C91",
   "status": "proved",
   "theorems": [
    "C91_log",
    "C91_tells",
    "C91_container"
   ],
   "note": "The values in the messages, in order; how they are formatted is not modelled. The messages of Bitstream::from are given without those of the cursors it makes."
  },
  {
   "property": "C92",
   "status": "partial",
   "theorems": [
    "C92_rounded",
    "C92_same",
    "C92_monotone",
    "C92_readAs",
    "C92_readAs_partial",
    "C92_readAs_refuted",
    "C92_readExact_f32",
    "C92_readExact_f64"
   ],
   "note": "The statement is false (C92_readAs_refuted: no BadCast, a rounded number instead; C92_readExact_f64 always fails). Proved: the number is unchanged up to as many bits as the type has digits, exactly when it is unchanged at all, that it is rounded to nearest and in order, and what read_exact does. The rounding of Rust's as operator is modelled, and shown to be that of IEEE 754."
  },
  {
   "property": "C93",
   "status": "partial",
   "theorems": [
    "C93_parses_partial",
    "C93_refuted",
    "C93_types_partial",
    "C93_types_differ",
    "C93_pointers_partial",
    "C93_rest_partial",
    "C93_lists_refuted",
    "C93_files",
    "C93_files_refuted"
   ],
   "note": "The statement is false (C93_refuted: the layout of 32-bit ARM is refused; C93_types_differ: four defaults differ; C93_lists_refuted). Proved: exactly which allowed layouts parse, that the table agrees with LLVM for all types but those four and for these if they are stated, that the last entry of an address space is that of LLVM, and that the rest agrees if native widths and non-integral spaces are stated at most once; and which files with such modules do not map. What LLVM allows is taken from its manual."
  },
  {
   "property": "C94",
   "status": "partial",
   "theorems": [
    "C94_functions_partial",
    "C94_functions_refuted",
    "C94_files",
    "C94_files_refuted"
   ],
   "note": "The statement is false (C94_functions_refuted): functions without a name, with names that are not UTF-8 and with calling conventions that are not listed are refused, and so are files with them. Proved: all others map to the function that was written; exactly which ones map, in a module and as files. The layout of the record is taken from LLVM's writer."
  },
  {
   "property": "C95",
   "status": "partial",
   "theorems": [
    "C95_groups_partial",
    "C95_groups_refuted",
    "C95_files",
    "C95_files_refuted"
   ],
   "note": "The statement is false (C95_groups_refuted): attributes with a type, large alignments, numbers that are not listed and strings that are not UTF-8 are refused, and so are files with them. Proved: exactly which groups map, in a block and as files, and that these map to the groups that were written. What the values of attributes mean is C45."
  },
  {
   "property": "C96",
   "status": "partial",
   "theorems": [
    "C96_aliases_partial",
    "C96_comdats_partial",
    "C96_refuted",
    "C96_files",
    "C96_files_refuted"
   ],
   "note": "The statement is false (C96_refuted). Proved: exactly which aliases and COMDATs that LLVM allows map, as records and as files; that names and types come back; exactly which aliases come back unchanged, and that no COMDAT does. The layout of the records is taken from LLVM's writer."
  },
  {
   "property": "C97",
   "status": "partial",
   "theorems": [
    "C97_files_partial",
    "C97_written_partial",
    "C97_definitions",
    "C97_types",
    "C97_refuted"
   ],
   "note": "The statement is false (C97_refuted; C97_definitions: for every module with a function that is defined). Proved: exactly which of the modules that LLVM allows map, in whatever encoding, and that the result then is one module with what was written. The other modules do not map; nor do those with recursive types, structures with a name of one byte, or a named structure right after a structure (C97_types). Global variables are left out: the library does not look at their records. What is written is taken from LLVM's writer."
  },
  {
   "property": "C98",
   "status": "partial",
   "theorems": [
    "C98_files_partial",
    "C98_written_partial",
    "C98_refuted"
   ],
   "note": "The statement is false (C98_refuted), for the same modules as C97; C97_types says, for any number of modules, that a module with recursive types and the like keeps the whole file from mapping. Proved: exactly which files with modules that LLVM allows map, for any number of modules and in whatever encoding, and that the result then is these modules, in order, with what was written."
  },
  {
   "property": "C99",
   "status": "proved",
   "theorems": [
    "C99_function",
    "C99_alias",
    "C99_comdat",
    "C99_types",
    "C99_groups",
    "C99_lists",
    "C99_attributes",
    "C99_bodies",
    "C99_stream"
   ],
   "note": "The text of num_enum's message is a part of the model."
  }
 ]
}
