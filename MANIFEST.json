{
 "claims": [
  {
   "property": "C01",
   "status": "proved",
   "theorems": [
    "Obj.Props.C01_uleb_round_trip"
   ],
   "note": ""
  },
  {
   "property": "C02",
   "status": "proved",
   "theorems": [
    "Obj.Props.C02_uleb_reader_exact",
    "Obj.Props.C02_uleb_reader_no_panic"
   ],
   "note": ""
  },
  {
   "property": "C03",
   "status": "proved",
   "theorems": [
    "Obj.Props.C03_sleb_round_trip"
   ],
   "note": ""
  },
  {
   "property": "C04",
   "status": "proved",
   "theorems": [
    "Obj.Props.C04_sleb_reader_exact",
    "Obj.Props.C04_sleb_reader_no_panic"
   ],
   "note": ""
  },
  {
   "property": "C05",
   "status": "proved",
   "theorems": [
    "Obj.Props.C05_slice_read_exact",
    "Obj.Props.C05_cursor_read",
    "Obj.Props.C05_slice_of_records",
    "Obj.Props.C05_data_range"
   ],
   "note": "Restrictions: `&[u8]` only (ReadCache: C08)"
  },
  {
   "property": "C06",
   "status": "proved",
   "theorems": [
    "Obj.Props.C06_until_exact",
    "Obj.Props.C06_string_table_get"
   ],
   "note": "Restrictions: string tables without end bound (`None`) are not modelled"
  },
  {
   "property": "C07",
   "status": "proved",
   "theorems": [
    "Obj.Props.C07_cursor_op_exact",
    "Obj.Props.C07_cursor_sequence"
   ],
   "note": ""
  },
  {
   "property": "C08",
   "status": "proved",
   "theorems": [
    "Obj.Props.C08_read",
    "Obj.Props.C08_range_read",
    "Obj.Props.C08_until_sound",
    "Obj.Props.C08_until_complete",
    "Obj.Props.C08_until_exact",
    "Obj.Props.C08_range_until",
    "Obj.Props.C08_until_history_dependent",
    "Obj.Props.C08_until_limit",
    "Obj.Props.C08_range_until_end_unchecked"
   ],
   "note": "Restrictions: `until` equality needs the hypotheses in the statement (witnessed necessary). I/O errors of the underlying file are not modelled"
  },
  {
   "property": "C09",
   "status": "proved",
   "theorems": [
    "Obj.Props.C09_string_table_round_trip",
    "Obj.Props.C09_write_result",
    "Obj.Props.C09_second_write_rejected",
    "Obj.Props.C09_in_order_round_trip",
    "Obj.Props.C09_only_empty_string_base0"
   ],
   "note": "Restrictions: strings without NUL; total below 2^64"
  },
  {
   "property": "C10",
   "status": "proved",
   "theorems": [
    "Obj.Props.C10_size_eq_written",
    "Obj.Props.C10_ids"
   ],
   "note": "Restrictions: as C09"
  },
  {
   "property": "C11",
   "status": "proved",
   "theorems": [
    "Obj.Props.C11_vec_buffer",
    "Obj.Props.C11_slice_buffer",
    "Obj.Props.C11_slice_overflow",
    "Obj.Props.C11_streaming_buffer"
   ],
   "note": "Restrictions: the stream itself is abstracted to a sequence of ok/error answers"
  },
  {
   "property": "C12",
   "status": "proved",
   "theorems": [
    "Obj.Props.C12_align_u64",
    "Obj.Props.C12_align_u32",
    "Obj.Props.C12_align_usize"
   ],
   "note": "Restrictions: power-of-two sizes, no overflow"
  },
  {
   "property": "C13",
   "status": "proved",
   "theorems": [
    "Obj.Props.C13_new",
    "Obj.Props.C13_before",
    "Obj.Props.C13_containing"
   ],
   "note": "Restrictions: std binary search contract assumed"
  },
  {
   "property": "C14",
   "status": "proved",
   "theorems": [
    "Obj.Props.C14_build",
    "Obj.Props.C14_no_table"
   ],
   "note": "Restrictions: as C13"
  },
  {
   "property": "C15",
   "status": "proved",
   "theorems": [
    "Obj.Props.C15_terminates",
    "Obj.Props.C15_layered",
    "Obj.Props.C15_aix",
    "Obj.Props.C15_data",
    "Obj.Props.C15_parse_no_panic"
   ],
   "note": ""
  },
  {
   "property": "C16",
   "status": "proved",
   "theorems": [
    "Obj.Props.C16_number",
    "Obj.Props.C16_ebcdic_number",
    "Obj.Props.C16_decimal_round_trip"
   ],
   "note": ""
  },
  {
   "property": "C17",
   "status": "proved",
   "theorems": [
    "Obj.Props.C17_sysv_lookup",
    "Obj.Props.C17_lookup_by_name"
   ],
   "note": "Restrictions: bucket count > 0; fewer than 2^32 symbols"
  },
  {
   "property": "C18",
   "status": "proved",
   "theorems": [
    "Obj.Props.C18_gnu_lookup"
   ],
   "note": "Restrictions: bloom shift < 32 (\u2265 32 panics in debug builds)"
  },
  {
   "property": "C19",
   "status": "proved",
   "theorems": [
    "Obj.Props.C19_sysv_any_table",
    "Obj.Props.C19_gnu_any_table",
    "Obj.Props.C19_gnu_parse_no_panic"
   ],
   "note": "Restrictions: bloom shift < 32"
  },
  {
   "property": "C20",
   "status": "proved",
   "theorems": [
    "Obj.Props.C20_notes",
    "Obj.Props.C20_disjoint",
    "Obj.Props.C20_fused",
    "Obj.Props.C20_round_trip",
    "Obj.Props.C20_trimmed_name"
   ],
   "note": ""
  },
  {
   "property": "C21",
   "status": "proved",
   "theorems": [
    "Obj.Props.C21_terminates",
    "Obj.Props.C21_header",
    "Obj.Props.C21_decode",
    "Obj.Props.C21_round_trip"
   ],
   "note": ""
  },
  {
   "property": "C22",
   "status": "proved",
   "theorems": [
    "Obj.Props.C22_relr"
   ],
   "note": ""
  },
  {
   "property": "C23",
   "status": "proved",
   "theorems": [
    "Obj.Props.C23_parse",
    "Obj.Props.C23_links",
    "Obj.Props.C23_chain"
   ],
   "note": "Restrictions: section 0 is not a relocation section (h0); counter-behaviour noted under findings"
  },
  {
   "property": "C24",
   "status": "proved",
   "theorems": [
    "Obj.Props.C24_traversal",
    "Obj.Props.C24_untrusted",
    "Obj.Props.C24_depth"
   ],
   "note": ""
  },
  {
   "property": "C25",
   "status": "proved",
   "theorems": [
    "Obj.Props.C25_rebase_ops",
    "Obj.Props.C25_bind_ops",
    "Obj.Props.C25_rebases",
    "Obj.Props.C25_binds",
    "Obj.Props.C25_run"
   ],
   "note": ""
  },
  {
   "property": "C26",
   "status": "proved",
   "theorems": [
    "Obj.Props.C26_function_starts",
    "Obj.Props.C26_strictly_increasing",
    "Obj.Props.C26_fused",
    "Obj.Props.C26_round_trip"
   ],
   "note": ""
  },
  {
   "property": "C27",
   "status": "proved",
   "theorems": [
    "Obj.Props.C27_load_commands",
    "Obj.Props.C27_fused"
   ],
   "note": ""
  },
  {
   "property": "C28",
   "status": "proved",
   "theorems": [
    "Obj.Props.C28_round_trip",
    "Obj.Props.C28_type0_page_start_lost",
    "Obj.Props.C28_out_of_order_panics"
   ],
   "note": "Restrictions: increasing pages (out of order: witnessed panic), type \u2260 0 at page start (witnessed loss)"
  },
  {
   "property": "C29",
   "status": "proved",
   "theorems": [
    "Obj.Props.C29_blocks",
    "Obj.Props.C29_fused",
    "Obj.Props.C29_relocs"
   ],
   "note": ""
  },
  {
   "property": "C30",
   "status": "proved",
   "theorems": [
    "Obj.Props.C30_file_range_at",
    "Obj.Props.C30_data_at",
    "Obj.Props.C30_data_containing",
    "Obj.Props.C30_section_containing",
    "Obj.Props.C30_directories",
    "Obj.Props.C30_directory_data"
   ],
   "note": ""
  },
  {
   "property": "C31",
   "status": "proved",
   "theorems": [
    "Obj.Props.C31_long_name",
    "Obj.Props.C31_decode",
    "Obj.Props.C31_decode_only",
    "Obj.Props.C31_section_names"
   ],
   "note": ""
  },
  {
   "property": "C32",
   "status": "proved",
   "theorems": [
    "Obj.Props.C32_round_trip",
    "Obj.Props.C32_overflow_count"
   ],
   "note": "Restrictions: fewer than 2^32-1 relocations"
  },
  {
   "property": "C33",
   "status": "proved",
   "theorems": [
    "Obj.Props.C33_header_written_iff",
    "Obj.Props.C33_counts_round_trip",
    "Obj.Props.C33_tables_round_trip"
   ],
   "note": ""
  },
  {
   "property": "C34",
   "status": "proved",
   "theorems": [
    "Obj.Props.C34_round_trip",
    "Obj.Props.C34_truncation_32",
    "Obj.Props.C34_section_round_trip"
   ],
   "note": "Restrictions: 32-bit: index < 2^24, type < 2^8 (truncation theorem otherwise)"
  },
  {
   "property": "C35",
   "status": "proved",
   "theorems": [
    "Obj.Props.C35_round_trip",
    "Obj.Props.C35_untrusted",
    "Obj.Props.C35_version",
    "Obj.Props.C35_raw"
   ],
   "note": ""
  },
  {
   "property": "C36",
   "status": "proved",
   "theorems": [
    "Obj.Props.C36_iterators_terminate",
    "Obj.Props.C36_table_no_panic",
    "Obj.Props.C36_definitions_round_trip",
    "Obj.Props.C36_requirements_round_trip",
    "Obj.Props.C36_table",
    "Obj.Props.C36_matches"
   ],
   "note": ""
  },
  {
   "property": "C37",
   "status": "proved",
   "theorems": [
    "Obj.Props.C37_elf_reserve",
    "Obj.Props.C37_elf",
    "Obj.Props.C37_coff",
    "Obj.Props.C37_coff_beyond_4gib",
    "Obj.Props.C37_pe",
    "Obj.Props.C37_pe_write"
   ],
   "note": "Restrictions: COFF/PE: total below 4 GiB (beyond: witnessed overlap)"
  },
  {
   "property": "C38",
   "status": "proved",
   "theorems": [
    "Obj.Props.C38_ids",
    "Obj.Props.C38_stable",
    "Obj.Props.C38_fresh",
    "Obj.Props.C38_iter",
    "Obj.Props.C38_count",
    "Obj.Props.C38_delete",
    "Obj.Props.C38_loop",
    "Obj.Props.C38_add",
    "Obj.Props.C38_copy"
   ],
   "note": "Restrictions: `iter_mut` + `mem::swap` of items is not modelled"
  },
  {
   "property": "C39",
   "status": "proved",
   "theorems": [
    "Obj.Props.C39_gnu_compressed_range",
    "Obj.Props.C39_compressed_data"
   ],
   "note": "Restrictions: decompression itself is not modelled"
  },
  {
   "property": "C40",
   "status": "proved",
   "theorems": [
    "Obj.Props.C40_round_trip",
    "Obj.Props.C40_bytes_round_trip",
    "Obj.Props.C40_digits",
    "Obj.Props.C40_reverse",
    "Obj.Props.C40_signed",
    "Obj.Props.C40_narrow",
    "Obj.Props.C40_narrow_signed",
    "Obj.Props.C40_struct"
   ],
   "note": ""
  },
  {
   "property": "C41",
   "status": "proved",
   "theorems": [
    "Obj.Props.C41_exact",
    "Obj.Props.C41_unique",
    "Obj.Props.C41_total"
   ],
   "note": "Restrictions: all kinds of the default feature set"
  },
  {
   "property": "C42",
   "status": "proved",
   "theorems": [
    "Obj.Props.C42_section_data",
    "Obj.Props.C42_segment_data",
    "Obj.Props.C42_segment_data_range",
    "Obj.Props.C42_section_index",
    "Obj.Props.C42_symbol_index",
    "Obj.Props.C42_section_headers_in_bounds",
    "Obj.Props.C42_program_headers_in_bounds",
    "Obj.Props.C42_section_array",
    "Obj.Props.C42_string_lookup",
    "Obj.Props.C42_names",
    "Obj.Props.C42_section_by_name",
    "Obj.Props.C42_no_panic",
    "Obj.Props.C42_symbol_table"
   ],
   "note": ""
  },
  {
   "property": "C43",
   "status": "proved",
   "theorems": [
    "Obj.Props.C43_append_data",
    "Obj.Props.C43_append_bss",
    "Obj.Props.C43_set_data",
    "Obj.Props.C43_reachable",
    "Obj.Props.C43_history",
    "Obj.Props.C43_placed",
    "Obj.Props.C43_placed_bss",
    "Obj.Props.C43_frame"
   ],
   "note": ""
  },
  {
   "property": "C44",
   "status": "proved",
   "theorems": [
    "Obj.Props.C44_suffix_sharing"
   ],
   "note": "Restrictions: strings without NUL"
  },
  {
   "property": "C45",
   "status": "proved",
   "theorems": [
    "Obj.Props.C45_properties",
    "Obj.Props.C45_round_trip",
    "Obj.Props.C45_gating"
   ],
   "note": ""
  },
  {
   "property": "C46",
   "status": "proved",
   "theorems": [
    "Obj.Props.C46_exact",
    "Obj.Props.C46_round_trip"
   ],
   "note": ""
  },
  {
   "property": "C47",
   "status": "proved",
   "theorems": [
    "Obj.Props.C47_symbols_round_trip"
   ],
   "note": ""
  },
  {
   "property": "C48",
   "status": "proved",
   "theorems": [
    "Obj.Props.C48_compressed_iff",
    "Obj.Props.C48_round_trip",
    "Obj.Props.C48_uncompressed",
    "Obj.Props.C48_gnu_named"
   ],
   "note": "Restrictions: decompression itself is not modelled"
  },
  {
   "property": "C49",
   "status": "proved",
   "theorems": [
    "Obj.Props.C49_dynamic_entry",
    "Obj.Props.C49_dynamic_iteration",
    "Obj.Props.C49_dynamic_table",
    "Obj.Props.C49_group_any",
    "Obj.Props.C49_comdat_round_trip",
    "Obj.Props.C49_comdat_sound"
   ],
   "note": ""
  },
  {
   "property": "C50",
   "status": "proved",
   "theorems": [
    "Obj.Props.C50_round_trip",
    "Obj.Props.C50_member_at_offset"
   ],
   "note": "Restrictions: common (GNU/BSD/COFF) archives; AIX and z/OS only as reading (C15)"
  },
  {
   "property": "C51",
   "status": "proved",
   "theorems": [
    "Obj.Props.C51_gnu",
    "Obj.Props.C51_bsd",
    "Obj.Props.C51_coff"
   ],
   "note": ""
  },
  {
   "property": "C52",
   "status": "proved",
   "theorems": [
    "Obj.Props.C52_hash_functions"
   ],
   "note": ""
  },
  {
   "property": "C53",
   "status": "proved",
   "theorems": [
    "Obj.Props.C53_symbol_names",
    "Obj.Props.C53_symbol_table"
   ],
   "note": "Restrictions: non-empty names; section numbers up to 0xfeff; bigobj is read-only"
  },
  {
   "property": "C54",
   "status": "proved",
   "theorems": [
    "Obj.Props.C54_headers",
    "Obj.Props.C54_symbols",
    "Obj.Props.C54_file_name",
    "Obj.Props.C54_address",
    "Obj.Props.C54_section_by_name",
    "Obj.Props.C54_max_file_offset"
   ],
   "note": ""
  },
  {
   "property": "C55",
   "status": "proved",
   "theorems": [
    "Obj.Props.C55_comdats",
    "Obj.Props.C55_comdat_sections"
   ],
   "note": ""
  },
  {
   "property": "C56",
   "status": "proved",
   "theorems": [
    "Obj.Props.C56_alignment",
    "Obj.Props.C56_accepted"
   ],
   "note": ""
  },
  {
   "property": "C57",
   "status": "proved",
   "theorems": [
    "Obj.Props.C57_parse",
    "Obj.Props.C57_export_table",
    "Obj.Props.C57_ordinals",
    "Obj.Props.C57_target",
    "Obj.Props.C57_exports",
    "Obj.Props.C57_iter"
   ],
   "note": ""
  },
  {
   "property": "C58",
   "status": "proved",
   "theorems": [
    "Obj.Props.C58_lists",
    "Obj.Props.C58_lists_fused",
    "Obj.Props.C58_thunk_get",
    "Obj.Props.C58_import",
    "Obj.Props.C58_hint_name",
    "Obj.Props.C58_from_sections",
    "Obj.Props.C58_imports",
    "Obj.Props.C58_libraries",
    "Obj.Props.C58_fused"
   ],
   "note": ""
  },
  {
   "property": "C59",
   "status": "proved",
   "theorems": [
    "Obj.Props.C59_root",
    "Obj.Props.C59_name_or_id",
    "Obj.Props.C59_entry_data",
    "Obj.Props.C59_name_data",
    "Obj.Props.C59_name_string",
    "Obj.Props.C59_name_text",
    "Obj.Props.C59_directory"
   ],
   "note": ""
  },
  {
   "property": "C60",
   "status": "proved",
   "theorems": [
    "Obj.Props.C60_section_id",
    "Obj.Props.C60_stable",
    "Obj.Props.C60_add_section",
    "Obj.Props.C60_add_subsection"
   ],
   "note": ""
  },
  {
   "property": "C61",
   "status": "proved",
   "theorems": [
    "Obj.Props.C61_section_symbol",
    "Obj.Props.C61_section_symbol_stable",
    "Obj.Props.C61_section_symbols_distinct",
    "Obj.Props.C61_section_kind",
    "Obj.Props.C61_add_symbol",
    "Obj.Props.C61_symbol_id_stable",
    "Obj.Props.C61_symbols_stable",
    "Obj.Props.C61_section_symbol_name",
    "Obj.Props.C61_add_section_symbol",
    "Obj.Props.C61_add_other",
    "Obj.Props.C61_set_symbol_data",
    "Obj.Props.C61_add_symbol_data",
    "Obj.Props.C61_add_symbol_bss",
    "Obj.Props.C61_section_and_offset",
    "Obj.Props.C61_mangling",
    "Obj.Props.C61_thread_var"
   ],
   "note": "Restrictions: symbol_mut/section_mut edits only where stated"
  },
  {
   "property": "C62",
   "status": "proved",
   "theorems": [
    "Obj.Props.C62_stored",
    "Obj.Props.C62_elf",
    "Obj.Props.C62_elf_rela",
    "Obj.Props.C62_elf_succeeds",
    "Obj.Props.C62_coff",
    "Obj.Props.C62_xcoff",
    "Obj.Props.C62_macho",
    "Obj.Props.C62_macho_pair",
    "Obj.Props.C62_error",
    "Obj.Props.C62_coff_got",
    "Obj.Props.C62_coff_got_new"
   ],
   "note": ""
  },
  {
   "property": "C63",
   "status": "proved",
   "theorems": [
    "Obj.Props.C63_elf_write_read",
    "Obj.Props.C63_elf_riscv",
    "Obj.Props.C63_elf_sharc",
    "Obj.Props.C63_elf_read_write",
    "Obj.Props.C63_elf_sparc",
    "Obj.Props.C63_elf_arch",
    "Obj.Props.C63_coff_write_read",
    "Obj.Props.C63_coff_read_write",
    "Obj.Props.C63_coff_size",
    "Obj.Props.C63_coff_arch",
    "Obj.Props.C63_xcoff_write_read",
    "Obj.Props.C63_macho_arch",
    "Obj.Props.C63_macho_write_read",
    "Obj.Props.C63_macho_pc"
   ],
   "note": "Restrictions: exceptions listed as theorems (riscv, sharc, sparc)"
  },
  {
   "property": "C64",
   "status": "proved",
   "theorems": [
    "Obj.Props.C64_record",
    "Obj.Props.C64_record_big",
    "Obj.Props.C64_round_trip",
    "Obj.Props.C64_order",
    "Obj.Props.C64_count",
    "Obj.Props.C64_succeeds"
   ],
   "note": "Restrictions: big endian: counter-theorem `C64_record_big`"
  },
  {
   "property": "C65",
   "status": "proved",
   "theorems": [
    "Obj.Props.C65_delete_orphans",
    "Obj.Props.C65_no_orphans",
    "Obj.Props.C65_nothing_to_delete",
    "Obj.Props.C65_idempotent",
    "Obj.Props.C65_unused_versions"
   ],
   "note": "Restrictions: ids in range"
  },
  {
   "property": "C66",
   "status": "proved",
   "theorems": [
    "Obj.Props.C66_append_range",
    "Obj.Props.C66_append_below",
    "Obj.Props.C66_recalculate",
    "Obj.Props.C66_recalculate_tight",
    "Obj.Props.C66_append_sections",
    "Obj.Props.C66_add_load_segment",
    "Obj.Props.C66_find_load_segment",
    "Obj.Props.C66_find_load_segment_none",
    "Obj.Props.C66_contains_address"
   ],
   "note": "Restrictions: append below the start: counter-theorem"
  },
  {
   "property": "C67",
   "status": "proved",
   "theorems": [
    "Obj.Props.C67_no_panic",
    "Obj.Props.C67_refused",
    "Obj.Props.C67_accepted",
    "Obj.Props.C67_round_trip"
   ],
   "note": "Restrictions: well-formed objects; values that fit the class"
  },
  {
   "property": "C68",
   "status": "proved",
   "theorems": [
    "Obj.Props.C68_section_views_agree",
    "Obj.Props.C68_symbols",
    "Obj.Props.C68_section_kinds",
    "Obj.Props.C68_each_once",
    "Obj.Props.C68_locals_first",
    "Obj.Props.C68_misplaced",
    "Obj.Props.C68_written"
   ],
   "note": "Restrictions: without explicit flags"
  },
  {
   "property": "C69",
   "status": "proved",
   "theorems": [
    "Obj.Props.C69_no_panic",
    "Obj.Props.C69_refused",
    "Obj.Props.C69_accepted",
    "Obj.Props.C69_round_trip"
   ],
   "note": "Restrictions: section count < 65536, below 4 GiB, file names \u2264 4590 bytes"
  },
  {
   "property": "C70",
   "status": "proved",
   "theorems": [
    "Obj.Props.C70_symbols",
    "Obj.Props.C70_sections",
    "Obj.Props.C70_comdats",
    "Obj.Props.C70_comdat_sections"
   ],
   "note": "Restrictions: COMDAT order hypothesis in the statement"
  },
  {
   "property": "C71",
   "status": "proved",
   "theorems": [
    "Obj.Props.C71_no_panic",
    "Obj.Props.C71_refused",
    "Obj.Props.C71_accepted",
    "Obj.Props.C71_label",
    "Obj.Props.C71_round_trip",
    "Obj.Props.C71_order_unique"
   ],
   "note": "Restrictions: relocations in little-endian files (C64)"
  },
  {
   "property": "C72",
   "status": "proved",
   "theorems": [
    "Obj.Props.C72_sections",
    "Obj.Props.C72_symbols",
    "Obj.Props.C72_iterate",
    "Obj.Props.C72_groups"
   ],
   "note": "Restrictions: Unknown scope excluded from the groups"
  },
  {
   "property": "C73",
   "status": "proved",
   "theorems": [
    "Obj.Props.C73_parse",
    "Obj.Props.C73_accepts",
    "Obj.Props.C73_sections",
    "Obj.Props.C73_relocations",
    "Obj.Props.C73_iterate",
    "Obj.Props.C73_symbol",
    "Obj.Props.C73_name",
    "Obj.Props.C73_csect"
   ],
   "note": "Restrictions: `comdat`, `segment` (empty) and unified kinds: C75"
  },
  {
   "property": "C74",
   "status": "proved",
   "theorems": [
    "Obj.Props.C74_no_panic",
    "Obj.Props.C74_refused",
    "Obj.Props.C74_accepted",
    "Obj.Props.C74_round_trip",
    "Obj.Props.C74_explicit",
    "Obj.Props.C74_size"
   ],
   "note": "Restrictions: values that fit; only file symbols without section"
  },
  {
   "property": "C75",
   "status": "proved",
   "theorems": [
    "Obj.Props.C75_symbols",
    "Obj.Props.C75_accepted_symbols",
    "Obj.Props.C75_sections"
   ],
   "note": "Restrictions: without explicit flags"
  },
  {
   "property": "C76",
   "status": "proved",
   "theorems": [
    "Obj.Props.C76_parse",
    "Obj.Props.C76_data",
    "Obj.Props.C76_round_trip",
    "Obj.Props.C76_architecture",
    "Obj.Props.C76_kind"
   ],
   "note": ""
  },
  {
   "property": "C77",
   "status": "proved",
   "theorems": [
    "Obj.Props.C77_parse",
    "Obj.Props.C77_blobs",
    "Obj.Props.C77_directory",
    "Obj.Props.C77_special_hash",
    "Obj.Props.C77_code_hash",
    "Obj.Props.C77_strings",
    "Obj.Props.C77_directory_written",
    "Obj.Props.C77_directory_round_trip",
    "Obj.Props.C77_signature_round_trip",
    "Obj.Props.C77_requirements",
    "Obj.Props.C77_command"
   ],
   "note": "Restrictions: cryptographic hashes are opaque bytes; requirement blobs are not interpreted (nor does the crate)"
  },
  {
   "property": "C78",
   "status": "proved",
   "theorems": [
    "Obj.Props.C78_parse",
    "Obj.Props.C78_round_trip",
    "Obj.Props.C78_kind",
    "Obj.Props.C78_architecture",
    "Obj.Props.C78_flags"
   ],
   "note": "Restrictions: there is no writer of import files in the crate; `image` is part of the specification"
  },
  {
   "property": "C79",
   "status": "proved",
   "theorems": [
    "Obj.Props.C79_imports",
    "Obj.Props.C79_exports",
    "Obj.Props.C79_libraries",
    "Obj.Props.C79_no_panic",
    "Obj.Props.C79_file"
   ],
   "note": ""
  },
  {
   "property": "C80",
   "status": "proved",
   "theorems": [
    "Obj.Props.C80_build_id",
    "Obj.Props.C80_places",
    "Obj.Props.C80_debuglink",
    "Obj.Props.C80_debugaltlink"
   ],
   "note": "Restrictions: file contents below 2^63 bytes for `gnu_debuglink` (a Rust slice cannot be longer)"
  },
  {
   "property": "C81",
   "status": "proved",
   "theorems": [
    "Obj.Props.C81_pointer",
    "Obj.Props.C81_pointer_total",
    "Obj.Props.C81_target",
    "Obj.Props.C81_fixups",
    "Obj.Props.C81_parse",
    "Obj.Props.C81_chained_fixups",
    "Obj.Props.C81_imports",
    "Obj.Props.C81_segments"
   ],
   "note": "Restrictions: segment data below 2^63 bytes (a Rust slice cannot be longer)"
  },
  {
   "property": "C82",
   "status": "proved",
   "theorems": [
    "Obj.Props.C82_commands",
    "Obj.Props.C82_libraries",
    "Obj.Props.C82_imports"
   ],
   "note": "Restrictions: file contents below 2^63 bytes (a Rust slice cannot be longer)"
  },
  {
   "property": "C83",
   "status": "proved",
   "theorems": [
    "Obj.Props.C83_exports",
    "Obj.Props.C83_well_formed",
    "Obj.Props.C83_unique"
   ],
   "note": "Restrictions: file contents below 2^63 bytes; for a malformed trie the results up to the first error of the trie are specified (what follows it is not, see the findings on the trie iterator)"
  },
  {
   "property": "C84",
   "status": "proved",
   "theorems": [
    "Obj.Props.C84_parse",
    "Obj.Props.C84_kind",
    "Obj.Props.C84_file",
    "Obj.Props.C84_sections",
    "Obj.Props.C84_section",
    "Obj.Props.C84_pdb_info"
   ],
   "note": "Restrictions: file contents below 2^63 bytes; base relocations, imports, exports and resources are separate properties"
  },
  {
   "property": "C85",
   "status": "proved",
   "theorems": [
    "Obj.Props.C85_round_trip",
    "Obj.Props.C85_layout",
    "Obj.Props.C85_addresses",
    "Obj.Props.C85_directories",
    "Obj.Props.C85_relocations",
    "Obj.Props.C85_reserve"
   ],
   "note": "Restrictions: file below 4 GiB (offsets are cut to 32 bits beyond); `reserve_until`, `reserve_virtual_until` and `reserve_file` between the calls of the client are only covered by C37; each data directory of a section is claimed once"
  },
  {
   "property": "C86",
   "status": "proved",
   "theorems": [
    "Obj.Props.C86_parse",
    "Obj.Props.C86_commands",
    "Obj.Props.C86_kind",
    "Obj.Props.C86_offsets",
    "Obj.Props.C86_header",
    "Obj.Props.C86_sections",
    "Obj.Props.C86_uuid",
    "Obj.Props.C86_build_version",
    "Obj.Props.C86_entry",
    "Obj.Props.C86_segments",
    "Obj.Props.C86_section_data",
    "Obj.Props.C86_indirect",
    "Obj.Props.C86_object_map",
    "Obj.Props.C86_object_map_total",
    "Obj.Props.C86_object_map_lookup"
   ],
   "note": "Restrictions: file contents below 2^63 bytes (a Rust slice cannot be longer); for symbol tables that are not made of modules only totality of the object map; imports, exports and relocations are separate properties"
  },
  {
   "property": "C87",
   "status": "proved",
   "theorems": [
    "Obj.Props.C87_parse",
    "Obj.Props.C87_kind",
    "Obj.Props.C87_header",
    "Obj.Props.C87_architecture",
    "Obj.Props.C87_sections",
    "Obj.Props.C87_by_name",
    "Obj.Props.C87_debug",
    "Obj.Props.C87_symbols",
    "Obj.Props.C87_relocations",
    "Obj.Props.C87_relocations_end",
    "Obj.Props.C87_dynamic_relocations",
    "Obj.Props.C87_relocation_section_index",
    "Obj.Props.C87_written"
   ],
   "note": "Restrictions: file contents below 2^64 bytes (a Rust slice cannot be longer); that relocation iteration gives exactly the sections that apply needs that the null section is not a relocation section (otherwise only termination without panic)"
  },
  {
   "property": "C88",
   "status": "proved",
   "theorems": [
    "Obj.Props.C88_parse",
    "Obj.Props.C88_kind",
    "Obj.Props.C88_header",
    "Obj.Props.C88_architecture",
    "Obj.Props.C88_sections",
    "Obj.Props.C88_names",
    "Obj.Props.C88_by_name",
    "Obj.Props.C88_data",
    "Obj.Props.C88_section_kind",
    "Obj.Props.C88_relocations",
    "Obj.Props.C88_symbol_by_index",
    "Obj.Props.C88_symbols",
    "Obj.Props.C88_symbol",
    "Obj.Props.C88_written"
   ],
   "note": "Restrictions: file contents below 2^63 bytes (a Rust slice cannot be longer)"
  },
  {
   "property": "C89",
   "status": "proved",
   "theorems": [
    "Obj.Props.C89_history",
    "Obj.Props.C89_add",
    "Obj.Props.C89_new",
    "Obj.Props.C89_elf",
    "Obj.Props.C89_coff",
    "Obj.Props.C89_macho",
    "Obj.Props.C89_xcoff"
   ],
   "note": "Restrictions: the file is what the map asks of it (`Objs`), with the instances of the formats; the hash map is an association list; PE sections have no relocations; subtractors are ignored as by the code"
  },
  {
   "property": "C90",
   "status": "proved",
   "theorems": [
    "Obj.Props.C90_parse",
    "Obj.Props.C90_kind",
    "Obj.Props.C90_header",
    "Obj.Props.C90_sections",
    "Obj.Props.C90_by_name",
    "Obj.Props.C90_data",
    "Obj.Props.C90_section_kind",
    "Obj.Props.C90_relocations",
    "Obj.Props.C90_symbols"
   ],
   "note": "Restrictions: file contents below 2^63 bytes (a Rust slice cannot be longer); segments, COMDAT groups, dynamic symbols, imports and exports are not implemented by the crate for XCOFF (their iterators are empty)"
  },
  {
   "property": "C91",
   "status": "proved",
   "theorems": [
    "Obj.Props.C91_parse",
    "Obj.Props.C91_unique",
    "Obj.Props.C91_containers",
    "Obj.Props.C91_class",
    "Obj.Props.C91_written"
   ],
   "note": "Restrictions: file contents below 2^63 bytes; the WebAssembly parser is a parameter that does not panic; objects as restricted by the properties about the writers"
  },
  {
   "property": "C92",
   "status": "proved",
   "theorems": [
    "Obj.Props.C92_parse",
    "Obj.Props.C92_kind",
    "Obj.Props.C92_suffixes",
    "Obj.Props.C92_count",
    "Obj.Props.C92_lookup",
    "Obj.Props.C92_lookup_unique",
    "Obj.Props.C92_mapping_data",
    "Obj.Props.C92_lookup_data",
    "Obj.Props.C92_mappings",
    "Obj.Props.C92_path",
    "Obj.Props.C92_image"
   ],
   "note": "Restrictions: lossy UTF-8 conversion of suffixes and paths is not modelled (bytes)"
  },
  {
   "property": "C93",
   "status": "proved",
   "theorems": [
    "Obj.Props.C93_slide",
    "Obj.Props.C93_pointer3",
    "Obj.Props.C93_pointer5",
    "Obj.Props.C93_pointer2",
    "Obj.Props.C93_relocations"
   ],
   "note": "Restrictions: file below 2^63 bytes; version 2 with a mask other than 0 (an example shows the panic for 0)"
  },
  {
   "property": "C94",
   "status": "proved",
   "theorems": [
    "Obj.Props.C94_exact",
    "Obj.Props.C94_unique",
    "Obj.Props.C94_read",
    "Obj.Props.C94_no_panic",
    "Obj.Props.C94_ids",
    "Obj.Props.C94_references",
    "Obj.Props.C94_no_orphans"
   ],
   "note": "Restrictions: file below 2^64 bytes; all errors are one error; a loop body interleaved with an iterator takes the items first"
  },
  {
   "property": "C95",
   "status": "proved",
   "theorems": [
    "Obj.Props.C95_clean",
    "Obj.Props.C95_required",
    "Obj.Props.C95_one_table",
    "Obj.Props.C95_small",
    "Obj.Props.C95_phoff",
    "Obj.Props.C95_loaded",
    "Obj.Props.C95_disjoint",
    "Obj.Props.C95_auto",
    "Obj.Props.C95_hash"
   ],
   "note": "Restrictions: output is a byte vector; an id of an item of the same table is replaced by the item"
  },
  {
   "property": "C96",
   "status": "proved",
   "theorems": [
    "Obj.Props.C96_read",
    "Obj.Props.C96_round_trip"
   ],
   "note": "Restrictions: `Sound` of Spec/BuildWrite.lean: numbers fit, types and data agree, needed tables exist; `Same` says what is generated again or lost"
  },
  {
   "property": "C97",
   "status": "proved",
   "theorems": [
    "Obj.Props.C97_orphans",
    "Obj.Props.C97_clean",
    "Obj.Props.C97_idempotent",
    "Obj.Props.C97_unchanged"
   ],
   "note": "Restrictions: `MachOBuilder` tables are lists of items with ids; a lookup by id is by position, as in `build/table.rs`"
  },
  {
   "property": "C98",
   "status": "proved",
   "theorems": [
    "Obj.Props.C98_read",
    "Obj.Props.C98_no_panic",
    "Obj.Props.C98_sound"
   ],
   "note": "Restrictions: file below 2^63 bytes; all errors are one error; load commands that the builder does not support are an error without being decoded"
  },
  {
   "property": "C99",
   "status": "proved",
   "theorems": [
    "Obj.Props.C99_write",
    "Obj.Props.C99_rewrite",
    "Obj.Props.C99_complete"
   ],
   "note": "Restrictions: `Sound` of Spec/MachoBuildWrite.lean; relocations only in little-endian files, deleted segments last; the page size and memory sizes of object file segments are not kept"
  },
  {
   "property": "C100",
   "status": "proved",
   "theorems": [
    "Obj.Props.C100_linked",
    "Obj.Props.C100_object",
    "Obj.Props.C100_groups"
   ],
   "note": "Restrictions: as C99; page size a power of two; that load commands end before the data of the first section is a debug assertion in the code, which the model takes for a panic"
  },
  {
   "property": "C101",
   "status": "proved",
   "theorems": [
    "Obj.Props.C101_size",
    "Obj.Props.C101_zero",
    "Obj.Props.C101_headers",
    "Obj.Props.C101_set",
    "Obj.Props.C101_stable"
   ],
   "note": "Restrictions: `Sound` as in C96, and there are segments; without segments the sizes are not used"
  },
  {
   "property": "C102",
   "status": "proved",
   "theorems": [
    "Obj.Props.C102_add",
    "Obj.Props.C102_round_trip",
    "Obj.Props.C102_other_formats"
   ],
   "note": "Restrictions: the history does not otherwise change or make the first property section; section below 2^63 bytes"
  },
  {
   "property": "C103",
   "status": "proved",
   "theorems": [
    "Obj.Props.C103_parse",
    "Obj.Props.C103_object",
    "Obj.Props.C103_data",
    "Obj.Props.C103_compressed_data",
    "Obj.Props.C103_names",
    "Obj.Props.C103_commands",
    "Obj.Props.C103_single_file"
   ],
   "note": "Restrictions: the data kept for a segment is the index of a file of the cache; files below 2^63 bytes"
  },
  {
   "property": "C104",
   "status": "proved",
   "theorems": [
    "Obj.Props.C104_names",
    "Obj.Props.C104_bit_names",
    "Obj.Props.C104_separate",
    "Obj.Props.C104_unique",
    "Obj.Props.C104_determined",
    "Obj.Props.C104_text",
    "Obj.Props.C104_constants",
    "Obj.Props.C104_operations"
   ],
   "note": "Restrictions: chains of tables are finite lists; each `write!` is one write; the contents of the tables are arbitrary, those of the format files are not listed"
  },
  {
   "property": "C105",
   "status": "proved",
   "theorems": [
    "Obj.Props.C105_one",
    "Obj.Props.C105_slice",
    "Obj.Props.C105_all",
    "Obj.Props.C105_bytes_of_slice",
    "Obj.Props.C105_bytes_of",
    "Obj.Props.C105_store"
   ],
   "note": "Restrictions: `usize` has 64 bits; the layout of a type is a size that is a multiple of its alignment; the validity of every bit pattern is the `Pod` contract; lifetimes and aliasing rules of references are those of the Rust compiler"
  }
 ]
}