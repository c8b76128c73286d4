Obj.Props.C01_uleb_round_trip: depends on axioms: [propext, Classical.choice, Quot.sound]
Obj.Props.C02_uleb_reader_exact: depends on axioms: [propext, Classical.choice, Quot.sound]
Obj.Props.C02_uleb_reader_no_panic: depends on axioms: [propext, Quot.sound]
Obj.Props.C03_sleb_round_trip: depends on axioms: [propext, Classical.choice, Quot.sound]
Obj.Props.C04_sleb_reader_exact: depends on axioms: [propext, Classical.choice, Quot.sound]
Obj.Props.C04_sleb_reader_no_panic: depends on axioms: [propext, Quot.sound]
Obj.Props.C05_slice_read_exact: depends on axioms: [propext, Classical.choice, Quot.sound]
Obj.Props.C05_cursor_read: depends on axioms: [propext, Classical.choice, Quot.sound]
Obj.Props.C05_slice_of_records: depends on axioms: [propext, Classical.choice, Quot.sound]
Obj.Props.C05_data_range: depends on axioms: [propext, Quot.sound]
Obj.Props.C06_until_exact: depends on axioms: [propext, Classical.choice, Quot.sound]
Obj.Props.C06_string_table_get: depends on axioms: [propext, Classical.choice, Quot.sound]
Obj.Props.C07_cursor_op_exact: depends on axioms: [propext, Classical.choice, Quot.sound]
Obj.Props.C07_cursor_sequence: depends on axioms: [propext, Classical.choice, Quot.sound]
Obj.Props.C08_read: depends on axioms: [propext, Classical.choice, Quot.sound]
Obj.Props.C08_range_read: depends on axioms: [propext, Classical.choice, Quot.sound]
Obj.Props.C08_until_sound: depends on axioms: [propext, Classical.choice, Quot.sound]
Obj.Props.C08_until_complete: depends on axioms: [propext, Classical.choice, Quot.sound]
Obj.Props.C08_until_exact: depends on axioms: [propext, Classical.choice, Quot.sound]
Obj.Props.C08_range_until: depends on axioms: [propext, Classical.choice, Quot.sound]
Obj.Props.C08_until_history_dependent: depends on axioms: [propext, Quot.sound]
Obj.Props.C08_until_limit: depends on axioms: [propext, Classical.choice, Quot.sound]
Obj.Props.C08_range_until_end_unchecked: depends on axioms: [propext, Quot.sound]
Obj.Props.C09_string_table_round_trip: depends on axioms: [propext, Classical.choice, Quot.sound]
Obj.Props.C09_write_result: depends on axioms: [propext, Classical.choice, Quot.sound]
Obj.Props.C09_second_write_rejected: depends on axioms: [propext, Classical.choice, Quot.sound]
Obj.Props.C09_in_order_round_trip: depends on axioms: [propext, Quot.sound]
Obj.Props.C09_only_empty_string_base0: depends on axioms: [propext, Quot.sound]
Obj.Props.C10_size_eq_written: depends on axioms: [propext, Classical.choice, Quot.sound]
Obj.Props.C10_ids: depends on axioms: [propext, Quot.sound]
Obj.Props.C11_vec_buffer: depends on axioms: [propext, Classical.choice, Quot.sound]
Obj.Props.C11_slice_buffer: depends on axioms: [propext, Classical.choice, Quot.sound]
Obj.Props.C11_slice_overflow: depends on axioms: [propext]
Obj.Props.C11_streaming_buffer: depends on axioms: [propext, Classical.choice, Quot.sound]
Obj.Props.C12_align_u64: depends on axioms: [propext, Classical.choice, Quot.sound]
Obj.Props.C12_align_u32: depends on axioms: [propext, Classical.choice, Quot.sound]
Obj.Props.C12_align_usize: depends on axioms: [propext, Classical.choice, Quot.sound]
Obj.Props.C13_new: depends on axioms: [propext, Classical.choice, Quot.sound]
Obj.Props.C13_before: depends on axioms: [propext, Classical.choice, Quot.sound]
Obj.Props.C13_containing: depends on axioms: [propext, Classical.choice, Quot.sound]
Obj.Props.C14_build: depends on axioms: [propext, Classical.choice, Quot.sound]
Obj.Props.C14_no_table: depends on axioms: [propext, Quot.sound]
Obj.Props.C15_terminates: depends on axioms: [propext, Classical.choice, Quot.sound]
Obj.Props.C15_layered: depends on axioms: [propext, Classical.choice, Quot.sound]
Obj.Props.C15_aix: depends on axioms: [propext, Classical.choice, Quot.sound]
Obj.Props.C15_data: depends on axioms: [propext, Quot.sound]
Obj.Props.C15_parse_no_panic: depends on axioms: [propext, Classical.choice, Quot.sound]
Obj.Props.C16_number: depends on axioms: [propext, Quot.sound]
Obj.Props.C16_ebcdic_number: depends on axioms: [propext, Quot.sound]
Obj.Props.C16_decimal_round_trip: depends on axioms: [propext, Classical.choice, Quot.sound]
Obj.Props.C17_sysv_lookup: depends on axioms: [propext, Classical.choice, Quot.sound]
Obj.Props.C17_lookup_by_name: depends on axioms: [propext, Classical.choice, Quot.sound]
Obj.Props.C18_gnu_lookup: depends on axioms: [propext, Classical.choice, Quot.sound]
Obj.Props.C19_sysv_any_table: depends on axioms: [propext, Quot.sound]
Obj.Props.C19_gnu_any_table: depends on axioms: [propext, Classical.choice, Quot.sound]
Obj.Props.C19_gnu_parse_no_panic: depends on axioms: [propext, Quot.sound]
Obj.Props.C20_notes: depends on axioms: [propext, Classical.choice, Quot.sound]
Obj.Props.C20_disjoint: depends on axioms: [propext, Quot.sound]
Obj.Props.C20_fused: depends on axioms: [propext]
Obj.Props.C20_round_trip: depends on axioms: [propext, Classical.choice, Quot.sound]
Obj.Props.C20_trimmed_name: depends on axioms: [propext]
Obj.Props.C21_terminates: depends on axioms: [propext, Classical.choice, Quot.sound]
Obj.Props.C21_header: depends on axioms: [propext, Classical.choice, Quot.sound]
Obj.Props.C21_decode: depends on axioms: [propext, Classical.choice, Quot.sound]
Obj.Props.C21_round_trip: depends on axioms: [propext, Classical.choice, Quot.sound]
Obj.Props.C22_relr: depends on axioms: [propext, Classical.choice, Quot.sound]
Obj.Props.C23_parse: depends on axioms: [propext, Classical.choice, Quot.sound]
Obj.Props.C23_links: depends on axioms: [propext, Classical.choice, Quot.sound]
Obj.Props.C23_chain: depends on axioms: [propext, Classical.choice, Quot.sound]
Obj.Props.C24_traversal: depends on axioms: [propext, Classical.choice, Quot.sound]
Obj.Props.C24_untrusted: depends on axioms: [propext, Classical.choice, Quot.sound]
Obj.Props.C24_depth: depends on axioms: [propext, Classical.choice, Quot.sound]
Obj.Props.C25_rebase_ops: depends on axioms: [propext, Classical.choice, Quot.sound]
Obj.Props.C25_bind_ops: depends on axioms: [propext, Classical.choice, Quot.sound]
Obj.Props.C25_rebases: depends on axioms: [propext, Classical.choice, Quot.sound]
Obj.Props.C25_binds: depends on axioms: [propext, Classical.choice, Quot.sound]
Obj.Props.C25_run: depends on axioms: [propext, Classical.choice, Quot.sound]
Obj.Props.C26_function_starts: depends on axioms: [propext, Classical.choice, Quot.sound]
Obj.Props.C26_strictly_increasing: depends on axioms: [propext, Classical.choice, Quot.sound]
Obj.Props.C26_fused: depends on axioms: [propext, Quot.sound]
Obj.Props.C26_round_trip: depends on axioms: [propext, Classical.choice, Quot.sound]
Obj.Props.C27_load_commands: depends on axioms: [propext, Classical.choice, Quot.sound]
Obj.Props.C27_fused: depends on axioms: [propext]
Obj.Props.C28_round_trip: depends on axioms: [propext, Classical.choice, Quot.sound]
Obj.Props.C28_type0_page_start_lost: depends on axioms: [propext]
Obj.Props.C28_out_of_order_panics: depends on axioms: [propext]
Obj.Props.C29_blocks: depends on axioms: [propext, Classical.choice, Quot.sound]
Obj.Props.C29_fused: depends on axioms: [propext]
Obj.Props.C29_relocs: depends on axioms: [propext, Classical.choice, Quot.sound]
Obj.Props.C30_file_range_at: depends on axioms: [propext, Classical.choice, Quot.sound]
Obj.Props.C30_data_at: depends on axioms: [propext, Classical.choice, Quot.sound]
Obj.Props.C30_data_containing: depends on axioms: [propext, Quot.sound]
Obj.Props.C30_section_containing: depends on axioms: [propext, Classical.choice, Quot.sound]
Obj.Props.C30_directories: depends on axioms: [propext, Classical.choice, Quot.sound]
Obj.Props.C30_directory_data: depends on axioms: [propext, Classical.choice, Quot.sound]
Obj.Props.C31_long_name: depends on axioms: [propext, Classical.choice, Quot.sound]
Obj.Props.C31_decode: depends on axioms: [propext, Classical.choice, Quot.sound]
Obj.Props.C31_decode_only: depends on axioms: [propext, Quot.sound]
Obj.Props.C31_section_names: depends on axioms: [propext, Classical.choice, Quot.sound]
Obj.Props.C32_round_trip: depends on axioms: [propext, Classical.choice, Quot.sound]
Obj.Props.C32_overflow_count: depends on axioms: [propext, Quot.sound]
Obj.Props.C33_header_written_iff: depends on axioms: [propext, Classical.choice, Quot.sound]
Obj.Props.C33_counts_round_trip: depends on axioms: [propext, Classical.choice, Quot.sound]
Obj.Props.C33_tables_round_trip: depends on axioms: [propext, Classical.choice, Quot.sound]
Obj.Props.C34_round_trip: depends on axioms: [propext, Classical.choice, Quot.sound]
Obj.Props.C34_truncation_32: depends on axioms: [propext, Classical.choice, Quot.sound]
Obj.Props.C34_section_round_trip: depends on axioms: [propext, Classical.choice, Quot.sound]
Obj.Props.C35_round_trip: depends on axioms: [propext, Classical.choice, Quot.sound]
Obj.Props.C35_untrusted: depends on axioms: [propext, Classical.choice, Quot.sound]
Obj.Props.C35_version: does not depend on any axioms
Obj.Props.C35_raw: depends on axioms: [propext, Classical.choice, Quot.sound]
Obj.Props.C36_iterators_terminate: depends on axioms: [propext, Quot.sound]
Obj.Props.C36_table_no_panic: depends on axioms: [propext, Quot.sound]
Obj.Props.C36_definitions_round_trip: depends on axioms: [propext, Classical.choice, Quot.sound]
Obj.Props.C36_requirements_round_trip: depends on axioms: [propext, Classical.choice, Quot.sound]
Obj.Props.C36_table: depends on axioms: [propext, Classical.choice, Quot.sound]
Obj.Props.C36_matches: depends on axioms: [propext, Classical.choice, Quot.sound]
Obj.Props.C37_elf_reserve: depends on axioms: [propext, Classical.choice, Quot.sound]
Obj.Props.C37_elf: depends on axioms: [propext, Classical.choice, Quot.sound]
Obj.Props.C37_coff: depends on axioms: [propext, Classical.choice, Quot.sound]
Obj.Props.C37_coff_beyond_4gib: depends on axioms: [propext, Quot.sound]
Obj.Props.C37_pe: depends on axioms: [propext, Classical.choice, Quot.sound]
Obj.Props.C37_pe_write: depends on axioms: [propext, Classical.choice, Quot.sound]
Obj.Props.C38_ids: depends on axioms: [propext, Quot.sound]
Obj.Props.C38_stable: depends on axioms: [propext, Quot.sound]
Obj.Props.C38_fresh: depends on axioms: [propext, Quot.sound]
Obj.Props.C38_iter: depends on axioms: [propext, Quot.sound]
Obj.Props.C38_count: depends on axioms: [propext, Quot.sound]
Obj.Props.C38_delete: depends on axioms: [propext, Quot.sound]
Obj.Props.C38_loop: depends on axioms: [propext, Quot.sound]
Obj.Props.C38_add: depends on axioms: [propext, Quot.sound]
Obj.Props.C38_copy: depends on axioms: [propext]
Obj.Props.C39_gnu_compressed_range: depends on axioms: [propext, Quot.sound]
Obj.Props.C39_compressed_data: depends on axioms: [propext, Classical.choice, Quot.sound]
Obj.Props.C40_round_trip: depends on axioms: [propext, Classical.choice, Quot.sound]
Obj.Props.C40_bytes_round_trip: depends on axioms: [propext, Quot.sound]
Obj.Props.C40_digits: depends on axioms: [propext, Quot.sound]
Obj.Props.C40_reverse: depends on axioms: [propext, Quot.sound]
Obj.Props.C40_signed: depends on axioms: [propext, Classical.choice, Quot.sound]
Obj.Props.C40_narrow: depends on axioms: [propext, Classical.choice, Quot.sound]
Obj.Props.C40_narrow_signed: depends on axioms: [propext, Classical.choice, Quot.sound]
Obj.Props.C40_struct: depends on axioms: [propext, Classical.choice, Quot.sound]
Obj.Props.C41_exact: depends on axioms: [propext, Classical.choice, Quot.sound]
Obj.Props.C41_unique: depends on axioms: [propext, Classical.choice, Quot.sound]
Obj.Props.C41_total: depends on axioms: [propext, Classical.choice, Quot.sound]
Obj.Props.C42_section_data: depends on axioms: [propext, Quot.sound]
Obj.Props.C42_segment_data: depends on axioms: [propext, Quot.sound]
Obj.Props.C42_segment_data_range: depends on axioms: [propext, Classical.choice, Quot.sound]
Obj.Props.C42_section_index: depends on axioms: [propext]
Obj.Props.C42_symbol_index: depends on axioms: [propext]
Obj.Props.C42_section_headers_in_bounds: depends on axioms: [propext, Classical.choice, Quot.sound]
Obj.Props.C42_program_headers_in_bounds: depends on axioms: [propext, Classical.choice, Quot.sound]
Obj.Props.C42_section_array: depends on axioms: [propext, Classical.choice, Quot.sound]
Obj.Props.C42_string_lookup: depends on axioms: [propext, Classical.choice, Quot.sound]
Obj.Props.C42_names: depends on axioms: [propext, Classical.choice, Quot.sound]
Obj.Props.C42_section_by_name: depends on axioms: [propext, Quot.sound]
Obj.Props.C42_no_panic: depends on axioms: [propext, Classical.choice, Quot.sound]
Obj.Props.C42_symbol_table: depends on axioms: [propext, Quot.sound]
Obj.Props.C43_append_data: depends on axioms: [propext, Classical.choice, Quot.sound]
Obj.Props.C43_append_bss: depends on axioms: [propext, Classical.choice, Quot.sound]
Obj.Props.C43_set_data: depends on axioms: [propext, Classical.choice, Quot.sound]
Obj.Props.C43_reachable: depends on axioms: [propext, Classical.choice, Quot.sound]
Obj.Props.C43_history: depends on axioms: [propext, Classical.choice, Quot.sound]
Obj.Props.C43_placed: depends on axioms: [propext, Classical.choice, Quot.sound]
Obj.Props.C43_placed_bss: depends on axioms: [propext, Classical.choice, Quot.sound]
Obj.Props.C43_frame: depends on axioms: [propext, Classical.choice, Quot.sound]
Obj.Props.C44_suffix_sharing: depends on axioms: [propext, Classical.choice, Quot.sound]
Obj.Props.C45_properties: depends on axioms: [propext, Classical.choice, Quot.sound]
Obj.Props.C45_round_trip: depends on axioms: [propext, Classical.choice, Quot.sound]
Obj.Props.C45_gating: depends on axioms: [propext]
Obj.Props.C46_exact: depends on axioms: [propext, Classical.choice, Quot.sound]
Obj.Props.C46_round_trip: depends on axioms: [propext, Classical.choice, Quot.sound]
Obj.Props.C47_symbols_round_trip: depends on axioms: [propext, Classical.choice, Quot.sound]
Obj.Props.C48_compressed_iff: depends on axioms: [propext, Quot.sound]
Obj.Props.C48_round_trip: depends on axioms: [propext, Classical.choice, Quot.sound]
Obj.Props.C48_uncompressed: depends on axioms: [propext, Quot.sound]
Obj.Props.C48_gnu_named: depends on axioms: [propext, Quot.sound]
Obj.Props.C49_dynamic_entry: depends on axioms: [propext, Classical.choice, Quot.sound]
Obj.Props.C49_dynamic_iteration: depends on axioms: [propext]
Obj.Props.C49_dynamic_table: depends on axioms: [propext, Classical.choice, Quot.sound]
Obj.Props.C49_group_any: depends on axioms: [propext, Classical.choice, Quot.sound]
Obj.Props.C49_comdat_round_trip: depends on axioms: [propext, Classical.choice, Quot.sound]
Obj.Props.C49_comdat_sound: depends on axioms: [propext, Classical.choice, Quot.sound]
Obj.Props.C50_round_trip: depends on axioms: [propext, Classical.choice, Quot.sound]
Obj.Props.C50_member_at_offset: depends on axioms: [propext, Quot.sound]
Obj.Props.C51_gnu: depends on axioms: [propext, Classical.choice, Quot.sound]
Obj.Props.C51_bsd: depends on axioms: [propext, Classical.choice, Quot.sound]
Obj.Props.C51_coff: depends on axioms: [propext, Classical.choice, Quot.sound]
Obj.Props.C52_hash_functions: depends on axioms: [propext, Classical.choice, Quot.sound]
Obj.Props.C53_symbol_names: depends on axioms: [propext, Classical.choice, Quot.sound]
Obj.Props.C53_symbol_table: depends on axioms: [propext, Classical.choice, Quot.sound]
Obj.Props.C54_headers: depends on axioms: [propext, Classical.choice, Quot.sound]
Obj.Props.C54_symbols: depends on axioms: [propext, Classical.choice, Quot.sound]
Obj.Props.C54_file_name: depends on axioms: [propext, Quot.sound]
Obj.Props.C54_address: depends on axioms: [propext, Quot.sound]
Obj.Props.C54_section_by_name: depends on axioms: [propext, Quot.sound]
Obj.Props.C54_max_file_offset: depends on axioms: [propext, Classical.choice, Quot.sound]
Obj.Props.C55_comdats: depends on axioms: [propext, Classical.choice, Quot.sound]
Obj.Props.C55_comdat_sections: depends on axioms: [propext, Classical.choice, Quot.sound]
Obj.Props.C56_alignment: depends on axioms: [propext, Classical.choice, Quot.sound]
Obj.Props.C56_accepted: depends on axioms: [propext, Quot.sound]
Obj.Props.C57_parse: depends on axioms: [propext, Classical.choice, Quot.sound]
Obj.Props.C57_export_table: depends on axioms: [propext, Classical.choice, Quot.sound]
Obj.Props.C57_ordinals: depends on axioms: [propext, Classical.choice, Quot.sound]
Obj.Props.C57_target: depends on axioms: [propext, Classical.choice, Quot.sound]
Obj.Props.C57_exports: depends on axioms: [propext, Classical.choice, Quot.sound]
Obj.Props.C57_iter: depends on axioms: [propext, Classical.choice, Quot.sound]
Obj.Props.C58_lists: depends on axioms: [propext, Classical.choice, Quot.sound]
Obj.Props.C58_lists_fused: depends on axioms: [propext, Quot.sound]
Obj.Props.C58_thunk_get: depends on axioms: [propext, Quot.sound]
Obj.Props.C58_import: depends on axioms: [propext, Classical.choice, Quot.sound]
Obj.Props.C58_hint_name: depends on axioms: [propext, Classical.choice, Quot.sound]
Obj.Props.C58_from_sections: depends on axioms: [propext, Classical.choice, Quot.sound]
Obj.Props.C58_imports: depends on axioms: [propext, Classical.choice, Quot.sound]
Obj.Props.C58_libraries: depends on axioms: [propext, Classical.choice, Quot.sound]
Obj.Props.C58_fused: depends on axioms: [propext, Quot.sound]
Obj.Props.C59_root: depends on axioms: [propext, Classical.choice, Quot.sound]
Obj.Props.C59_name_or_id: depends on axioms: [propext, Classical.choice, Quot.sound]
Obj.Props.C59_entry_data: depends on axioms: [propext, Classical.choice, Quot.sound]
Obj.Props.C59_name_data: depends on axioms: [propext, Classical.choice, Quot.sound]
Obj.Props.C59_name_string: depends on axioms: [propext, Classical.choice, Quot.sound]
Obj.Props.C59_name_text: depends on axioms: [propext, Classical.choice, Quot.sound]
Obj.Props.C59_directory: depends on axioms: [propext, Classical.choice, Quot.sound]
Obj.Props.C60_section_id: depends on axioms: [propext, Classical.choice, Quot.sound]
Obj.Props.C60_stable: depends on axioms: [propext, Classical.choice, Quot.sound]
Obj.Props.C60_add_section: does not depend on any axioms
Obj.Props.C60_add_subsection: depends on axioms: [propext, Quot.sound]
Obj.Props.C61_section_symbol: depends on axioms: [propext]
Obj.Props.C61_section_symbol_stable: depends on axioms: [propext, Classical.choice, Quot.sound]
Obj.Props.C61_section_symbols_distinct: depends on axioms: [propext, Classical.choice, Quot.sound]
Obj.Props.C61_section_kind: depends on axioms: [propext, Classical.choice, Quot.sound]
Obj.Props.C61_add_symbol: depends on axioms: [propext]
Obj.Props.C61_symbol_id_stable: depends on axioms: [propext, Quot.sound]
Obj.Props.C61_symbols_stable: depends on axioms: [propext, Quot.sound]
Obj.Props.C61_section_symbol_name: depends on axioms: [propext, Classical.choice, Quot.sound]
Obj.Props.C61_add_section_symbol: depends on axioms: [propext, Quot.sound]
Obj.Props.C61_add_other: depends on axioms: [propext]
Obj.Props.C61_set_symbol_data: depends on axioms: [propext]
Obj.Props.C61_add_symbol_data: depends on axioms: [propext, Classical.choice, Quot.sound]
Obj.Props.C61_add_symbol_bss: depends on axioms: [propext, Classical.choice, Quot.sound]
Obj.Props.C61_section_and_offset: depends on axioms: [propext, Quot.sound]
Obj.Props.C61_mangling: depends on axioms: [propext]
Obj.Props.C61_thread_var: depends on axioms: [propext, Classical.choice, Quot.sound]
Obj.Props.C62_stored: depends on axioms: [propext, Classical.choice, Quot.sound]
Obj.Props.C62_elf: depends on axioms: [propext, Quot.sound]
Obj.Props.C62_elf_rela: depends on axioms: [propext]
Obj.Props.C62_elf_succeeds: depends on axioms: [propext, Classical.choice, Quot.sound]
Obj.Props.C62_coff: depends on axioms: [propext, Quot.sound]
Obj.Props.C62_xcoff: depends on axioms: [propext, Classical.choice, Quot.sound]
Obj.Props.C62_macho: depends on axioms: [propext, Quot.sound]
Obj.Props.C62_macho_pair: depends on axioms: [propext, Quot.sound]
Obj.Props.C62_error: depends on axioms: [propext, Classical.choice, Quot.sound]
Obj.Props.C62_coff_got: depends on axioms: [propext, Quot.sound]
Obj.Props.C62_coff_got_new: depends on axioms: [propext, Classical.choice, Quot.sound]
Obj.Props.C63_elf_write_read: depends on axioms: [propext]
Obj.Props.C63_elf_riscv: depends on axioms: [propext]
Obj.Props.C63_elf_sharc: depends on axioms: [propext]
Obj.Props.C63_elf_read_write: depends on axioms: [propext, Quot.sound]
Obj.Props.C63_elf_sparc: depends on axioms: [propext]
Obj.Props.C63_elf_arch: depends on axioms: [propext, Quot.sound]
Obj.Props.C63_coff_write_read: depends on axioms: [propext]
Obj.Props.C63_coff_read_write: depends on axioms: [propext, Quot.sound]
Obj.Props.C63_coff_size: depends on axioms: [propext]
Obj.Props.C63_coff_arch: depends on axioms: [propext]
Obj.Props.C63_xcoff_write_read: depends on axioms: [propext, Quot.sound]
Obj.Props.C63_macho_arch: depends on axioms: [propext]
Obj.Props.C63_macho_write_read: depends on axioms: [propext, Classical.choice, Quot.sound]
Obj.Props.C63_macho_pc: depends on axioms: [propext]
Obj.Props.C64_record: depends on axioms: [propext, Classical.choice, Quot.sound]
Obj.Props.C64_record_big: depends on axioms: [propext, Classical.choice, Quot.sound]
Obj.Props.C64_round_trip: depends on axioms: [propext, Classical.choice, Quot.sound]
Obj.Props.C64_order: depends on axioms: [propext, Quot.sound]
Obj.Props.C64_count: depends on axioms: [propext, Classical.choice, Quot.sound]
Obj.Props.C64_succeeds: depends on axioms: [propext, Quot.sound]
Obj.Props.C65_delete_orphans: depends on axioms: [propext, Classical.choice, Quot.sound]
Obj.Props.C65_no_orphans: depends on axioms: [propext, Classical.choice, Quot.sound]
Obj.Props.C65_nothing_to_delete: depends on axioms: [propext, Classical.choice, Quot.sound]
Obj.Props.C65_idempotent: depends on axioms: [propext, Classical.choice, Quot.sound]
Obj.Props.C65_unused_versions: depends on axioms: [propext, Classical.choice, Quot.sound]
Obj.Props.C66_append_range: depends on axioms: [propext, Classical.choice, Quot.sound]
Obj.Props.C66_append_below: does not depend on any axioms
Obj.Props.C66_recalculate: depends on axioms: [propext, Classical.choice, Quot.sound]
Obj.Props.C66_recalculate_tight: depends on axioms: [propext, Classical.choice, Quot.sound]
Obj.Props.C66_append_sections: depends on axioms: [propext, Classical.choice, Quot.sound]
Obj.Props.C66_add_load_segment: depends on axioms: [propext, Classical.choice, Quot.sound]
Obj.Props.C66_find_load_segment: depends on axioms: [propext, Classical.choice, Quot.sound]
Obj.Props.C66_find_load_segment_none: depends on axioms: [propext, Classical.choice, Quot.sound]
Obj.Props.C66_contains_address: depends on axioms: [propext, Classical.choice, Quot.sound]
Obj.Props.C67_no_panic: depends on axioms: [propext, Classical.choice, Quot.sound]
Obj.Props.C67_refused: depends on axioms: [propext, Classical.choice, Quot.sound]
Obj.Props.C67_accepted: depends on axioms: [propext, Classical.choice, Quot.sound]
Obj.Props.C67_round_trip: depends on axioms: [propext, Classical.choice, Quot.sound]
Obj.Props.C68_section_views_agree: depends on axioms: [propext, Quot.sound]
Obj.Props.C68_symbols: depends on axioms: [propext, Quot.sound]
Obj.Props.C68_section_kinds: depends on axioms: [propext, Quot.sound]
Obj.Props.C68_each_once: depends on axioms: [propext, Classical.choice, Quot.sound]
Obj.Props.C68_locals_first: depends on axioms: [propext, Classical.choice, Quot.sound]
Obj.Props.C68_misplaced: depends on axioms: [propext, Quot.sound]
Obj.Props.C68_written: depends on axioms: [propext, Classical.choice, Quot.sound]
Obj.Props.C69_no_panic: depends on axioms: [propext, Classical.choice, Quot.sound]
Obj.Props.C69_refused: depends on axioms: [propext, Classical.choice, Quot.sound]
Obj.Props.C69_accepted: depends on axioms: [propext, Classical.choice, Quot.sound]
Obj.Props.C69_round_trip: depends on axioms: [propext, Classical.choice, Quot.sound]
Obj.Props.C70_symbols: depends on axioms: [propext, Classical.choice, Quot.sound]
Obj.Props.C70_sections: depends on axioms: [propext, Classical.choice, Quot.sound]
Obj.Props.C70_comdats: depends on axioms: [propext, Classical.choice, Quot.sound]
Obj.Props.C70_comdat_sections: depends on axioms: [propext, Classical.choice, Quot.sound]
Obj.Props.C71_no_panic: depends on axioms: [propext, Classical.choice, Quot.sound]
Obj.Props.C71_refused: depends on axioms: [propext, Classical.choice, Quot.sound]
Obj.Props.C71_accepted: depends on axioms: [propext, Classical.choice, Quot.sound]
Obj.Props.C71_label: depends on axioms: [propext, Quot.sound]
Obj.Props.C71_round_trip: depends on axioms: [propext, Classical.choice, Quot.sound]
Obj.Props.C71_order_unique: depends on axioms: [propext, Quot.sound]
Obj.Props.C72_sections: depends on axioms: [propext, Classical.choice, Quot.sound]
Obj.Props.C72_symbols: depends on axioms: [propext, Classical.choice, Quot.sound]
Obj.Props.C72_iterate: depends on axioms: [propext, Classical.choice, Quot.sound]
Obj.Props.C72_groups: depends on axioms: [propext, Classical.choice, Quot.sound]
Obj.Props.C73_parse: depends on axioms: [propext, Classical.choice, Quot.sound]
Obj.Props.C73_accepts: depends on axioms: [propext, Classical.choice, Quot.sound]
Obj.Props.C73_sections: depends on axioms: [propext, Quot.sound]
Obj.Props.C73_relocations: depends on axioms: [propext, Classical.choice, Quot.sound]
Obj.Props.C73_iterate: depends on axioms: [propext, Classical.choice, Quot.sound]
Obj.Props.C73_symbol: depends on axioms: [propext, Quot.sound]
Obj.Props.C73_name: depends on axioms: [propext, Classical.choice, Quot.sound]
Obj.Props.C73_csect: depends on axioms: [propext, Classical.choice, Quot.sound]
Obj.Props.C74_no_panic: depends on axioms: [propext, Classical.choice, Quot.sound]
Obj.Props.C74_refused: depends on axioms: [propext, Classical.choice, Quot.sound]
Obj.Props.C74_accepted: depends on axioms: [propext, Classical.choice, Quot.sound]
Obj.Props.C74_round_trip: depends on axioms: [propext, Classical.choice, Quot.sound]
Obj.Props.C74_explicit: depends on axioms: [propext, Classical.choice, Quot.sound]
Obj.Props.C74_size: depends on axioms: [propext, Classical.choice, Quot.sound]
Obj.Props.C75_symbols: depends on axioms: [propext, Classical.choice, Quot.sound]
Obj.Props.C75_accepted_symbols: depends on axioms: [propext, Classical.choice, Quot.sound]
Obj.Props.C75_sections: depends on axioms: [propext, Classical.choice, Quot.sound]
Obj.Props.C76_parse: depends on axioms: [propext, Classical.choice, Quot.sound]
Obj.Props.C76_data: depends on axioms: [propext, Quot.sound]
Obj.Props.C76_round_trip: depends on axioms: [propext, Classical.choice, Quot.sound]
Obj.Props.C76_architecture: depends on axioms: [propext]
Obj.Props.C76_kind: depends on axioms: [propext, Classical.choice, Quot.sound]
Obj.Props.C77_parse: depends on axioms: [propext, Classical.choice, Quot.sound]
Obj.Props.C77_blobs: depends on axioms: [propext, Classical.choice, Quot.sound]
Obj.Props.C77_directory: depends on axioms: [propext, Classical.choice, Quot.sound]
Obj.Props.C77_special_hash: depends on axioms: [propext, Quot.sound]
Obj.Props.C77_code_hash: depends on axioms: [propext, Classical.choice, Quot.sound]
Obj.Props.C77_strings: depends on axioms: [propext, Quot.sound]
Obj.Props.C77_directory_written: depends on axioms: [propext, Classical.choice, Quot.sound]
Obj.Props.C77_directory_round_trip: depends on axioms: [propext, Classical.choice, Quot.sound]
Obj.Props.C77_signature_round_trip: depends on axioms: [propext, Classical.choice, Quot.sound]
Obj.Props.C77_requirements: depends on axioms: [propext, Quot.sound]
Obj.Props.C77_command: depends on axioms: [propext, Classical.choice, Quot.sound]
Obj.Props.C78_parse: depends on axioms: [propext, Classical.choice, Quot.sound]
Obj.Props.C78_round_trip: depends on axioms: [propext, Classical.choice, Quot.sound]
Obj.Props.C78_kind: depends on axioms: [propext, Classical.choice, Quot.sound]
Obj.Props.C78_architecture: depends on axioms: [propext]
Obj.Props.C78_flags: depends on axioms: [propext, Classical.choice, Quot.sound]
Obj.Props.C79_imports: depends on axioms: [propext, Classical.choice, Quot.sound]
Obj.Props.C79_exports: depends on axioms: [propext, Classical.choice, Quot.sound]
Obj.Props.C79_libraries: depends on axioms: [propext, Quot.sound]
Obj.Props.C79_no_panic: depends on axioms: [propext, Classical.choice, Quot.sound]
Obj.Props.C79_file: depends on axioms: [propext, Classical.choice, Quot.sound]
Obj.Props.C80_build_id: depends on axioms: [propext, Classical.choice, Quot.sound]
Obj.Props.C80_places: depends on axioms: [propext, Classical.choice, Quot.sound]
Obj.Props.C80_debuglink: depends on axioms: [propext, Classical.choice, Quot.sound]
Obj.Props.C80_debugaltlink: depends on axioms: [propext, Quot.sound]
Obj.Props.C81_pointer: depends on axioms: [propext, Classical.choice, Quot.sound]
Obj.Props.C81_pointer_total: depends on axioms: [propext, Classical.choice, Quot.sound]
Obj.Props.C81_target: depends on axioms: [propext, Quot.sound]
Obj.Props.C81_fixups: depends on axioms: [propext, Classical.choice, Quot.sound]
Obj.Props.C81_parse: depends on axioms: [propext, Classical.choice, Quot.sound]
Obj.Props.C81_chained_fixups: depends on axioms: [propext, Classical.choice, Quot.sound]
Obj.Props.C81_imports: depends on axioms: [propext, Classical.choice, Quot.sound]
Obj.Props.C81_segments: depends on axioms: [propext, Classical.choice, Quot.sound]
Obj.Props.C82_commands: depends on axioms: [propext, Classical.choice, Quot.sound]
Obj.Props.C82_libraries: depends on axioms: [propext, Classical.choice, Quot.sound]
Obj.Props.C82_imports: depends on axioms: [propext, Classical.choice, Quot.sound]
Obj.Props.C83_exports: depends on axioms: [propext, Classical.choice, Quot.sound]
Obj.Props.C83_well_formed: depends on axioms: [propext, Classical.choice, Quot.sound]
Obj.Props.C83_unique: depends on axioms: [propext, Quot.sound]
Obj.Props.C84_parse: depends on axioms: [propext, Classical.choice, Quot.sound]
Obj.Props.C84_kind: depends on axioms: [propext, Classical.choice, Quot.sound]
Obj.Props.C84_file: depends on axioms: [propext, Quot.sound]
Obj.Props.C84_sections: depends on axioms: [propext, Quot.sound]
Obj.Props.C84_section: depends on axioms: [propext, Classical.choice, Quot.sound]
Obj.Props.C84_pdb_info: depends on axioms: [propext, Classical.choice, Quot.sound]
Obj.Props.C85_round_trip: depends on axioms: [propext, Classical.choice, Quot.sound]
Obj.Props.C85_layout: depends on axioms: [propext, Classical.choice, Quot.sound]
Obj.Props.C85_addresses: depends on axioms: [propext, Classical.choice, Quot.sound]
Obj.Props.C85_directories: depends on axioms: [propext, Classical.choice, Quot.sound]
Obj.Props.C85_relocations: depends on axioms: [propext, Classical.choice, Quot.sound]
Obj.Props.C85_reserve: depends on axioms: [propext, Classical.choice, Quot.sound]
Obj.Props.C86_parse: depends on axioms: [propext, Classical.choice, Quot.sound]
Obj.Props.C86_commands: depends on axioms: [propext, Classical.choice, Quot.sound]
Obj.Props.C86_kind: depends on axioms: [propext, Classical.choice, Quot.sound]
Obj.Props.C86_offsets: depends on axioms: [propext, Classical.choice, Quot.sound]
Obj.Props.C86_header: depends on axioms: [propext, Classical.choice, Quot.sound]
Obj.Props.C86_sections: depends on axioms: [propext, Classical.choice, Quot.sound]
Obj.Props.C86_uuid: depends on axioms: [propext, Classical.choice, Quot.sound]
Obj.Props.C86_build_version: depends on axioms: [propext, Classical.choice, Quot.sound]
Obj.Props.C86_entry: depends on axioms: [propext, Classical.choice, Quot.sound]
Obj.Props.C86_segments: depends on axioms: [propext, Quot.sound]
Obj.Props.C86_section_data: depends on axioms: [propext, Classical.choice, Quot.sound]
Obj.Props.C86_indirect: depends on axioms: [propext, Classical.choice, Quot.sound]
Obj.Props.C86_object_map: depends on axioms: [propext, Classical.choice, Quot.sound]
Obj.Props.C86_object_map_total: depends on axioms: [propext, Quot.sound]
Obj.Props.C86_object_map_lookup: depends on axioms: [propext, Classical.choice, Quot.sound]
Obj.Props.C87_parse: depends on axioms: [propext, Classical.choice, Quot.sound]
Obj.Props.C87_kind: depends on axioms: [propext, Classical.choice, Quot.sound]
Obj.Props.C87_header: depends on axioms: [propext, Classical.choice, Quot.sound]
Obj.Props.C87_architecture: depends on axioms: [propext, Classical.choice, Quot.sound]
Obj.Props.C87_sections: depends on axioms: [propext, Quot.sound]
Obj.Props.C87_by_name: depends on axioms: [propext, Classical.choice, Quot.sound]
Obj.Props.C87_debug: depends on axioms: [propext, Classical.choice, Quot.sound]
Obj.Props.C87_symbols: depends on axioms: [propext, Quot.sound]
Obj.Props.C87_relocations: depends on axioms: [propext, Classical.choice, Quot.sound]
Obj.Props.C87_relocations_end: depends on axioms: [propext, Classical.choice, Quot.sound]
Obj.Props.C87_dynamic_relocations: depends on axioms: [propext, Classical.choice, Quot.sound]
Obj.Props.C87_relocation_section_index: depends on axioms: [propext, Classical.choice, Quot.sound]
Obj.Props.C87_written: depends on axioms: [propext, Classical.choice, Quot.sound]
Obj.Props.C88_parse: depends on axioms: [propext, Classical.choice, Quot.sound]
Obj.Props.C88_kind: depends on axioms: [propext, Classical.choice, Quot.sound]
Obj.Props.C88_header: depends on axioms: [propext, Classical.choice, Quot.sound]
Obj.Props.C88_architecture: depends on axioms: [propext]
Obj.Props.C88_sections: depends on axioms: [propext, Quot.sound]
Obj.Props.C88_names: depends on axioms: [propext, Classical.choice, Quot.sound]
Obj.Props.C88_by_name: depends on axioms: [propext, Classical.choice, Quot.sound]
Obj.Props.C88_data: depends on axioms: [propext, Quot.sound]
Obj.Props.C88_section_kind: depends on axioms: [propext, Quot.sound]
Obj.Props.C88_relocations: depends on axioms: [propext, Classical.choice, Quot.sound]
Obj.Props.C88_symbol_by_index: depends on axioms: [propext, Classical.choice, Quot.sound]
Obj.Props.C88_symbols: depends on axioms: [propext, Classical.choice, Quot.sound]
Obj.Props.C88_symbol: depends on axioms: [propext, Classical.choice, Quot.sound]
Obj.Props.C88_written: depends on axioms: [propext, Classical.choice, Quot.sound]
Obj.Props.C89_history: depends on axioms: [propext, Classical.choice, Quot.sound]
Obj.Props.C89_add: depends on axioms: [propext, Classical.choice, Quot.sound]
Obj.Props.C89_new: depends on axioms: [propext, Classical.choice, Quot.sound]
Obj.Props.C89_elf: depends on axioms: [propext, Classical.choice, Quot.sound]
Obj.Props.C89_coff: depends on axioms: [propext, Classical.choice, Quot.sound]
Obj.Props.C89_macho: depends on axioms: [propext, Classical.choice, Quot.sound]
Obj.Props.C89_xcoff: depends on axioms: [propext, Classical.choice, Quot.sound]
Obj.Props.C90_parse: depends on axioms: [propext, Classical.choice, Quot.sound]
Obj.Props.C90_kind: depends on axioms: [propext, Classical.choice, Quot.sound]
Obj.Props.C90_header: depends on axioms: [propext, Classical.choice, Quot.sound]
Obj.Props.C90_sections: depends on axioms: [propext, Quot.sound]
Obj.Props.C90_by_name: depends on axioms: [propext, Classical.choice, Quot.sound]
Obj.Props.C90_data: depends on axioms: [propext, Quot.sound]
Obj.Props.C90_section_kind: depends on axioms: [propext, Quot.sound]
Obj.Props.C90_relocations: depends on axioms: [propext, Classical.choice, Quot.sound]
Obj.Props.C90_symbols: depends on axioms: [propext, Classical.choice, Quot.sound]
Obj.Props.C91_parse: depends on axioms: [propext, Classical.choice, Quot.sound]
Obj.Props.C91_unique: depends on axioms: [propext, Classical.choice, Quot.sound]
Obj.Props.C91_containers: depends on axioms: [propext, Classical.choice, Quot.sound]
Obj.Props.C91_class: depends on axioms: [propext, Classical.choice, Quot.sound]
Obj.Props.C91_written: depends on axioms: [propext, Classical.choice, Quot.sound]
Obj.Props.C92_parse: depends on axioms: [propext, Classical.choice, Quot.sound]
Obj.Props.C92_kind: depends on axioms: [propext, Classical.choice, Quot.sound]
Obj.Props.C92_suffixes: depends on axioms: [propext, Classical.choice, Quot.sound]
Obj.Props.C92_count: depends on axioms: [propext, Classical.choice, Quot.sound]
Obj.Props.C92_lookup: depends on axioms: [propext, Classical.choice, Quot.sound]
Obj.Props.C92_lookup_unique: depends on axioms: [propext, Classical.choice, Quot.sound]
Obj.Props.C92_mapping_data: depends on axioms: [propext, Quot.sound]
Obj.Props.C92_lookup_data: depends on axioms: [propext, Classical.choice, Quot.sound]
Obj.Props.C92_mappings: depends on axioms: [propext, Quot.sound]
Obj.Props.C92_path: depends on axioms: [propext, Quot.sound]
Obj.Props.C92_image: depends on axioms: [propext]
Obj.Props.C93_slide: depends on axioms: [propext, Classical.choice, Quot.sound]
Obj.Props.C93_pointer3: depends on axioms: [propext, Classical.choice, Quot.sound]
Obj.Props.C93_pointer5: depends on axioms: [propext, Classical.choice, Quot.sound]
Obj.Props.C93_pointer2: depends on axioms: [propext, Classical.choice, Quot.sound]
Obj.Props.C93_relocations: depends on axioms: [propext, Classical.choice, Quot.sound]
Obj.Props.C94_exact: depends on axioms: [propext, Classical.choice, Quot.sound]
Obj.Props.C94_unique: depends on axioms: [propext, Classical.choice, Quot.sound]
Obj.Props.C94_read: depends on axioms: [propext, Classical.choice, Quot.sound]
Obj.Props.C94_no_panic: depends on axioms: [propext, Classical.choice, Quot.sound]
Obj.Props.C94_ids: depends on axioms: [propext, Classical.choice, Quot.sound]
Obj.Props.C94_references: depends on axioms: [propext, Classical.choice, Quot.sound]
Obj.Props.C94_no_orphans: depends on axioms: [propext, Classical.choice, Quot.sound]
Obj.Props.C95_clean: depends on axioms: [propext, Classical.choice, Quot.sound]
Obj.Props.C95_required: depends on axioms: [propext, Classical.choice, Quot.sound]
Obj.Props.C95_one_table: depends on axioms: [propext, Classical.choice, Quot.sound]
Obj.Props.C95_small: depends on axioms: [propext, Classical.choice, Quot.sound]
Obj.Props.C95_phoff: depends on axioms: [propext, Classical.choice, Quot.sound]
Obj.Props.C95_loaded: depends on axioms: [propext, Classical.choice, Quot.sound]
Obj.Props.C95_disjoint: depends on axioms: [propext, Classical.choice, Quot.sound]
Obj.Props.C95_auto: depends on axioms: [propext, Classical.choice, Quot.sound]
Obj.Props.C95_hash: depends on axioms: [propext, Classical.choice, Quot.sound]
Obj.Props.C96_read: depends on axioms: [propext, Classical.choice, Quot.sound]
Obj.Props.C96_round_trip: depends on axioms: [propext, Classical.choice, Quot.sound]
Obj.Props.C97_orphans: depends on axioms: [propext, Classical.choice, Quot.sound]
Obj.Props.C97_clean: depends on axioms: [propext, Classical.choice, Quot.sound]
Obj.Props.C97_idempotent: depends on axioms: [propext, Classical.choice, Quot.sound]
Obj.Props.C97_unchanged: depends on axioms: [propext, Classical.choice, Quot.sound]
Obj.Props.C98_read: depends on axioms: [propext, Classical.choice, Quot.sound]
Obj.Props.C98_no_panic: depends on axioms: [propext, Classical.choice, Quot.sound]
Obj.Props.C98_sound: depends on axioms: [propext, Classical.choice, Quot.sound]
Obj.Props.C99_write: depends on axioms: [propext, Classical.choice, Quot.sound]
Obj.Props.C99_rewrite: depends on axioms: [propext, Classical.choice, Quot.sound]
Obj.Props.C99_complete: depends on axioms: [propext, Classical.choice, Quot.sound]
Obj.Props.C100_linked: depends on axioms: [propext, Classical.choice, Quot.sound]
Obj.Props.C100_object: depends on axioms: [propext, Classical.choice, Quot.sound]
Obj.Props.C100_groups: depends on axioms: [propext, Classical.choice, Quot.sound]
Obj.Props.C101_size: depends on axioms: [propext, Classical.choice, Quot.sound]
Obj.Props.C101_zero: depends on axioms: [propext, Quot.sound]
Obj.Props.C101_headers: depends on axioms: [propext, Classical.choice, Quot.sound]
Obj.Props.C101_set: depends on axioms: [propext, Quot.sound]
Obj.Props.C101_stable: depends on axioms: [propext, Quot.sound]
Obj.Props.C102_add: depends on axioms: [propext, Classical.choice, Quot.sound]
Obj.Props.C102_round_trip: depends on axioms: [propext, Classical.choice, Quot.sound]
Obj.Props.C102_other_formats: depends on axioms: [propext]
Obj.Props.C103_parse: depends on axioms: [propext, Classical.choice, Quot.sound]
Obj.Props.C103_object: depends on axioms: [propext, Classical.choice, Quot.sound]
Obj.Props.C103_data: depends on axioms: [propext, Classical.choice, Quot.sound]
Obj.Props.C103_compressed_data: depends on axioms: [propext, Classical.choice, Quot.sound]
Obj.Props.C103_names: depends on axioms: [propext, Classical.choice, Quot.sound]
Obj.Props.C103_commands: depends on axioms: [propext, Classical.choice, Quot.sound]
Obj.Props.C103_single_file: depends on axioms: [propext, Classical.choice, Quot.sound]
Obj.Props.C104_names: depends on axioms: [propext, Classical.choice, Quot.sound]
Obj.Props.C104_bit_names: depends on axioms: [propext, Classical.choice, Quot.sound]
Obj.Props.C104_separate: depends on axioms: [propext, Classical.choice, Quot.sound]
Obj.Props.C104_unique: depends on axioms: [propext, Quot.sound]
Obj.Props.C104_determined: depends on axioms: [propext, Quot.sound]
Obj.Props.C104_text: depends on axioms: [propext, Classical.choice, Quot.sound]
Obj.Props.C104_constants: depends on axioms: [propext, Quot.sound]
Obj.Props.C104_operations: depends on axioms: [propext, Classical.choice, Quot.sound]
Obj.Props.C105_one: depends on axioms: [propext, Classical.choice, Quot.sound]
Obj.Props.C105_slice: depends on axioms: [propext, Classical.choice, Quot.sound]
Obj.Props.C105_all: depends on axioms: [propext, Classical.choice, Quot.sound]
Obj.Props.C105_bytes_of_slice: depends on axioms: [propext, Quot.sound]
Obj.Props.C105_bytes_of: depends on axioms: [propext]
Obj.Props.C105_store: depends on axioms: [propext, Classical.choice, Quot.sound]
