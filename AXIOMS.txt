'Jpy.C01_verdict' depends on axioms: [propext, Classical.choice, Quot.sound]
'Jpy.C02_failure' depends on axioms: [propext, Classical.choice, Quot.sound]
'Jpy.C02_consistent' depends on axioms: [propext, Classical.choice, Quot.sound]
'Jpy.C03_verbose' depends on axioms: [propext, Classical.choice, Quot.sound]
'Jpy.C04_failed_tests' depends on axioms: [propext, Classical.choice, Quot.sound]
'Jpy.C05_nullxml' depends on axioms: [propext, Classical.choice, Quot.sound]
'Jpy.C06_packetmarkers' depends on axioms: [propext, Classical.choice, Quot.sound]
'Jpy.C07_mix' depends on axioms: [propext, Classical.choice, Quot.sound]
'Jpy.C08_boxes' depends on axioms: [propext, Classical.choice, Quot.sound]
'Jpy.C08_segments' depends on axioms: [propext, Classical.choice, Quot.sound]
'Jpy.C09_walk' depends on axioms: [propext, Classical.choice, Quot.sound]
'Jpy.C09_depth' depends on axioms: [propext, Classical.choice, Quot.sound]
'Jpy.C09_report' depends on axioms: [propext, Classical.choice, Quot.sound]
'Jpy.C10_roundtrip' depends on axioms: [propext, Classical.choice, Quot.sound]
'Jpy.C11_bound' depends on axioms: [propext, Classical.choice, Quot.sound]
'Jpy.C11_exact' depends on axioms: [propext, Classical.choice, Quot.sound]
'Jpy.C11_codestreams' depends on axioms: [propext, Classical.choice, Quot.sound]
'Jpy.C11_partial' depends on axioms: [propext, Classical.choice, Quot.sound]
'Jpy.C11_false' depends on axioms: [propext, Classical.choice, Quot.sound]
'Jpy.C12_others_partial' depends on axioms: [propext, Quot.sound]
'Jpy.C12_plt_partial' depends on axioms: [propext, Classical.choice, Quot.sound]
'Jpy.C12_plm_partial' depends on axioms: [propext, Classical.choice, Quot.sound]
'Jpy.C12_hypothesis' depends on axioms: [propext, Quot.sound]
'Jpy.C12_false' depends on axioms: [propext, Classical.choice, Quot.sound]
'Jpy.C13_plt_values' depends on axioms: [propext, Classical.choice, Quot.sound]
'Jpy.C13_plm_values' depends on axioms: [propext, Classical.choice, Quot.sound]
'Jpy.C13_plt_partial' depends on axioms: [propext, Classical.choice, Quot.sound]
'Jpy.C13_plm_partial' depends on axioms: [propext, Classical.choice, Quot.sound]
'Jpy.C13_false' depends on axioms: [propext, Classical.choice, Quot.sound]
'Jpy.C14_exact' depends on axioms: [propext, Classical.choice, Quot.sound]
'Jpy.C14_cycle' depends on axioms: [propext, Classical.choice, Quot.sound]
'Jpy.C14_partial' depends on axioms: [propext, Classical.choice, Quot.sound]
'Jpy.C14_false' depends on axioms: [propext, Classical.choice, Quot.sound]
'Jpy.C15_unsigned' depends on axioms: [propext]
'Jpy.C15_sentinel' depends on axioms: [propext, Classical.choice, Quot.sound]
'Jpy.C15_range' depends on axioms: [propext, Classical.choice, Quot.sound]
'Jpy.C15_signed' depends on axioms: [propext, Classical.choice, Quot.sound]
'Jpy.C15_integer' depends on axioms: [propext]
'Jpy.C16_signature' depends on axioms: [propext, Quot.sound]
'Jpy.C16_ftyp' depends on axioms: [propext, Classical.choice, Quot.sound]
'Jpy.C16_file' depends on axioms: [propext, Classical.choice, Quot.sound]
'Jpy.C17_layout' depends on axioms: [propext, Classical.choice, Quot.sound]
'Jpy.C17_order' depends on axioms: [propext, Classical.choice, Quot.sound]
'Jpy.C18_file' depends on axioms: [propext, Classical.choice, Quot.sound]
'Jpy.C18_header' depends on axioms: [propext, Classical.choice, Quot.sound]
'Jpy.C19_ihdr_accepted' depends on axioms: [propext, Classical.choice, Quot.sound]
'Jpy.C19_ihdr_partial' depends on axioms: [propext, Classical.choice, Quot.sound]
'Jpy.C19_ihdr_false' depends on axioms: [propext, Classical.choice, Quot.sound]
'Jpy.C19_file' depends on axioms: [propext, Classical.choice, Quot.sound]
'Jpy.C20_same_image' depends on axioms: [propext, Classical.choice, Quot.sound]
'Jpy.C20_dimensions' depends on axioms: [propext, Classical.choice, Quot.sound]
'Jpy.C21_bpcc' depends on axioms: [propext, Classical.choice, Quot.sound]
'Jpy.C21_components' depends on axioms: [propext, Classical.choice, Quot.sound]
'Jpy.C22_ipr' depends on axioms: [propext, Classical.choice, Quot.sound]
'Jpy.C23_codestream' depends on axioms: [propext, Classical.choice, Quot.sound]
'Jpy.C23_framing' depends on axioms: [propext, Classical.choice, Quot.sound]
'Jpy.C23_no_tileparts' depends on axioms: [propext, Quot.sound]
'Jpy.C23_file' depends on axioms: [propext, Quot.sound]
'Jpy.C23_reported' depends on axioms: [propext, Classical.choice, Quot.sound]
'Jpy.C24_tiles_partial' depends on axioms: [propext, Classical.choice, Quot.sound]
'Jpy.C24_count' depends on axioms: [propext, Classical.choice, Quot.sound]
'Jpy.C24_false' depends on axioms: [propext, Quot.sound]
'Jpy.C25_tileparts_partial' depends on axioms: [propext, Classical.choice, Quot.sound]
'Jpy.C25_chain_partial' depends on axioms: [propext, Classical.choice, Quot.sound]
'Jpy.C25_main' depends on axioms: [propext, Classical.choice, Quot.sound]
'Jpy.C25_false' depends on axioms: [propext, Quot.sound]
'Jpy.C26_siz_partial' depends on axioms: [propext, Classical.choice, Quot.sound]
'Jpy.C26_siz_crash' depends on axioms: [propext, Classical.choice, Quot.sound]
'Jpy.C26_tiles' depends on axioms: [propext, Classical.choice, Quot.sound]
'Jpy.C27_cod' depends on axioms: [propext, Classical.choice, Quot.sound]
'Jpy.C27_coc' depends on axioms: [propext, Classical.choice, Quot.sound]
'Jpy.C27_cod_precincts' depends on axioms: [propext, Classical.choice, Quot.sound]
'Jpy.C27_coc_precincts' depends on axioms: [propext, Classical.choice, Quot.sound]
'Jpy.C28_qcd_values_partial' depends on axioms: [propext, Classical.choice, Quot.sound]
'Jpy.C28_qcc_values' depends on axioms: [propext, Classical.choice, Quot.sound]
'Jpy.C28_qcc_values_false' depends on axioms: [propext, Classical.choice, Quot.sound]
'Jpy.C28_qcd' depends on axioms: [propext, Classical.choice, Quot.sound]
'Jpy.C28_qcc' depends on axioms: [propext, Classical.choice, Quot.sound]
'Jpy.C29_rgn' depends on axioms: [propext, Classical.choice, Quot.sound]
'Jpy.C29_crg' depends on axioms: [propext, Classical.choice, Quot.sound]
'Jpy.C29_poc' depends on axioms: [propext, Classical.choice, Quot.sound]
'Jpy.C30_com' depends on axioms: [propext, Classical.choice, Quot.sound]
'Jpy.C30_comment_value' depends on axioms: [propext, Classical.choice, Quot.sound]
'Jpy.C31_cap_exact' depends on axioms: [propext, Classical.choice, Quot.sound]
'Jpy.C31_cap_partial' depends on axioms: [propext, Classical.choice, Quot.sound]
'Jpy.C31_cap_truncated' depends on axioms: [propext, Quot.sound]
'Jpy.C31_cap_values' depends on axioms: [propext, Classical.choice, Quot.sound]
'Jpy.C32_prf_number_exact' depends on axioms: [propext, Classical.choice, Quot.sound]
'Jpy.C32_cpf_number_exact' depends on axioms: [propext, Classical.choice, Quot.sound]
'Jpy.C32_cpf_accepted' depends on axioms: [propext, Classical.choice, Quot.sound]
'Jpy.C32_prf_accepted' depends on axioms: [propext, Classical.choice, Quot.sound]
'Jpy.C32_prf_number_partial' depends on axioms: [propext, Classical.choice, Quot.sound]
'Jpy.C32_cpf_number_partial' depends on axioms: [propext, Classical.choice, Quot.sound]
'Jpy.C32_prf_false' depends on axioms: [propext, Classical.choice, Quot.sound]
'Jpy.C32_cpf_false' depends on axioms: [propext, Quot.sound]
'Jpy.C33_sot' depends on axioms: [propext, Classical.choice, Quot.sound]
'Jpy.C34_res' depends on axioms: [propext, Classical.choice, Quot.sound]
'Jpy.C34_res_values' depends on axioms: [propext, Classical.choice, Quot.sound]
'Jpy.C34_res_crash' depends on axioms: [propext, Classical.choice, Quot.sound]
'Jpy.C34_superbox' depends on axioms: [propext, Classical.choice, Quot.sound]
'Jpy.C35_colr_accepted' depends on axioms: [propext, Classical.choice, Quot.sound]
'Jpy.C35_colr_partial' depends on axioms: [propext, Classical.choice, Quot.sound]
'Jpy.C35_colr_false' depends on axioms: [propext, Classical.choice, Quot.sound]
'Jpy.C36_palette' depends on axioms: [propext, Classical.choice, Quot.sound]
'Jpy.C36_cmap' depends on axioms: [propext, Classical.choice, Quot.sound]
'Jpy.C36_cdef' depends on axioms: [propext, Classical.choice, Quot.sound]
'Jpy.C36_palette_values_exact' depends on axioms: [propext, Classical.choice, Quot.sound]
'Jpy.C36_palette_values' depends on axioms: [propext, Classical.choice, Quot.sound]
'Jpy.C36_palette_values_false' depends on axioms: [propext, Quot.sound]
'Jpy.C37_uinf' depends on axioms: [propext, Classical.choice, Quot.sound]
'Jpy.C37_uuid' depends on axioms: [propext, Classical.choice, Quot.sound]
'Jpy.C37_uuid_value' depends on axioms: [propext, Classical.choice, Quot.sound]
'Jpy.C37_uuid_crash' depends on axioms: [propext, Quot.sound]
'Jpy.C37_ulst' depends on axioms: [propext, Classical.choice, Quot.sound]
'Jpy.C37_ulst_values' depends on axioms: [propext, Classical.choice, Quot.sound]
'Jpy.C38_url' depends on axioms: [propext, Classical.choice, Quot.sound]
'Jpy.C38_url_value' depends on axioms: [propext, Classical.choice, Quot.sound]
'Jpy.C39_jp2' depends on axioms: [propext, Classical.choice, Quot.sound]
'Jpy.C39_codestream_partial' depends on axioms: [propext, Classical.choice, Quot.sound]
'Jpy.C39_false' depends on axioms: [propext, Classical.choice, Quot.sound]
'Jpy.C39_jp2_exact' depends on axioms: [propext, Classical.choice, Quot.sound]
'Jpy.C39_codestream_exact' depends on axioms: [propext, Classical.choice, Quot.sound]
'Jpy.C40_printable' depends on axioms: [propext, Classical.choice, Quot.sound]
'Jpy.C40_stable' depends on axioms: [propext, Classical.choice, Quot.sound]
'Jpy.C40_properties' depends on axioms: [propext, Classical.choice, Quot.sound]
'Jpy.C40_tests' depends on axioms: [propext, Classical.choice, Quot.sound]
'Jpy.C40_descriptions_unique' depends on axioms: [propext, Classical.choice, Quot.sound]
'Jpy.C40_elsewhere' depends on axioms: [propext, Classical.choice, Quot.sound]
'Jpy.C40_elsewhere_false' depends on axioms: [propext, Classical.choice, Quot.sound]
'Jpy.C41_partial' depends on axioms: [propext, Classical.choice, Quot.sound]
'Jpy.C41_false' depends on axioms: [propext, Classical.choice, Quot.sound]
'Jpy.C41_exact' depends on axioms: [propext, Classical.choice, Quot.sound]
'Jpy.C42_unknown' depends on axioms: [propext, Quot.sound]
'Jpy.C42_file' depends on axioms: [propext, Classical.choice, Quot.sound]
'Jpy.C42_report' depends on axioms: [propext, Classical.choice, Quot.sound]
'Jpy.C42_insert' depends on axioms: [propext, Classical.choice, Quot.sound]
'Jpy.C42_positions' depends on axioms: [propext, Classical.choice, Quot.sound]
'Jpy.C43_plain' depends on axioms: [propext, Quot.sound]
'Jpy.C43_wildcard' depends on axioms: [propext, Quot.sound]
'Jpy.C43_tree' depends on axioms: [propext, Quot.sound]
'Jpy.C43_arguments' depends on axioms: [propext, Quot.sound]
'Jpy.C44_history' depends on axioms: [propext, Classical.choice, Quot.sound]
'Jpy.C44_first_partial' depends on axioms: [propext, Classical.choice, Quot.sound]
'Jpy.C44_false' depends on axioms: [propext, Classical.choice, Quot.sound]
'Jpy.C44_main_once' depends on axioms: [propext, Classical.choice, Quot.sound]
'Jpy.C45_format' depends on axioms: [propext, Classical.choice, Quot.sound]
'Jpy.C45_empty' depends on axioms: [propext, Classical.choice, Quot.sound]
'Jpy.C45_mix' depends on axioms: [propext, Classical.choice, Quot.sound]
'Jpy.C46_report_exact' depends on axioms: [propext, Classical.choice, Quot.sound]
'Jpy.C46_command_exact' depends on axioms: [propext, Classical.choice, Quot.sound]
'Jpy.C46_report' depends on axioms: [propext, Classical.choice, Quot.sound]
'Jpy.C46_document_partial' depends on axioms: [propext, Classical.choice, Quot.sound]
'Jpy.C46_stop' depends on axioms: [propext, Classical.choice, Quot.sound]
'Jpy.C46_done' depends on axioms: [propext, Classical.choice, Quot.sound]
'Jpy.C46_false' depends on axioms: [propext, Classical.choice, Quot.sound]
'Jpy.C46_reports' depends on axioms: [propext, Classical.choice, Quot.sound]
'Jpy.C46_exact' depends on axioms: [propext, Classical.choice, Quot.sound]
'Jpy.C47_strip' depends on axioms: [propext, Classical.choice, Quot.sound]
'Jpy.C47_encodable' depends on axioms: [propext, Classical.choice, Quot.sound]
'Jpy.C47_untouched' depends on axioms: [propext, Classical.choice, Quot.sound]
'Jpy.C48_exact' depends on axioms: [propext, Classical.choice, Quot.sound]
'Jpy.C48_codestreams' depends on axioms: [propext, Classical.choice, Quot.sound]
'Jpy.C48_partial' depends on axioms: [propext, Classical.choice, Quot.sound]
'Jpy.C48_jp2_partial' depends on axioms: [propext, Classical.choice, Quot.sound]
'Jpy.C48_false' depends on axioms: [propext, Classical.choice, Quot.sound]
'Jpy.C48_false_rdf' depends on axioms: [propext, Classical.choice, Quot.sound]
'Jpy.C49_contiguous' depends on axioms: [propext, Classical.choice, Quot.sound]
'Jpy.C50_codestream' depends on axioms: [propext, Classical.choice, Quot.sound]
'Jpy.C50_file' depends on axioms: [propext, Classical.choice, Quot.sound]
'Jpy.C50_reported' depends on axioms: [propext, Classical.choice, Quot.sound]
'Jpy.C50_images' depends on axioms: [propext, Classical.choice, Quot.sound]
'Jpy.C51_pretty_partial' depends on axioms: [propext, Classical.choice, Quot.sound]
'Jpy.C51_legal' depends on axioms: [propext, Classical.choice, Quot.sound]
'Jpy.C51_compact_partial' depends on axioms: [propext, Classical.choice, Quot.sound]
'Jpy.C51_verdicts_pretty' depends on axioms: [propext, Classical.choice, Quot.sound]
'Jpy.C51_verdicts_compact' depends on axioms: [propext, Classical.choice, Quot.sound]
'Jpy.C51_false' depends on axioms: [propext, Classical.choice, Quot.sound]
'Jpy.C51_utf8' depends on axioms: [propext, Classical.choice, Quot.sound]
'Jpy.C51_bytes' depends on axioms: [propext, Classical.choice, Quot.sound]
'Jpy.C51_compact_exact' depends on axioms: [propext, Classical.choice, Quot.sound]
'Jpy.C52_codestream' depends on axioms: [propext, Classical.choice, Quot.sound]
'Jpy.C52_file' depends on axioms: [propext, Classical.choice, Quot.sound]
'Jpy.C52_reported' depends on axioms: [propext, Classical.choice, Quot.sound]
'Jpy.C52_conforming' depends on axioms: [propext, Classical.choice, Quot.sound]
'Jpy.C52_undeclared' depends on axioms: [propext, Quot.sound]
'Jpy.C53_ihdr' depends on axioms: [propext, Classical.choice, Quot.sound]
'Jpy.C53_ftyp' depends on axioms: [propext, Classical.choice, Quot.sound]
'Jpy.C53_bpcc' depends on axioms: [propext, Classical.choice, Quot.sound]
'Jpy.C53_cmap' depends on axioms: [propext, Classical.choice, Quot.sound]
'Jpy.C53_cdef' depends on axioms: [propext, Classical.choice, Quot.sound]
'Jpy.C53_pclr' depends on axioms: [propext, Classical.choice, Quot.sound]
'Jpy.C53_resc' depends on axioms: [propext, Classical.choice, Quot.sound]
'Jpy.C53_resd' depends on axioms: [propext, Classical.choice, Quot.sound]
'Jpy.C53_url' depends on axioms: [propext, Classical.choice, Quot.sound]
'Jpy.C53_sot' depends on axioms: [propext, Quot.sound]
'Jpy.C53_qcd' depends on axioms: [propext, Quot.sound]
'Jpy.C53_qcc' depends on axioms: [propext, Quot.sound]
'Jpy.C53_cod' depends on axioms: [propext, Classical.choice, Quot.sound]
'Jpy.C53_coc' depends on axioms: [propext, Classical.choice, Quot.sound]
'Jpy.C53_rgn' depends on axioms: [propext, Quot.sound]
'Jpy.C53_poc' depends on axioms: [propext, Classical.choice, Quot.sound]
'Jpy.C53_crg' depends on axioms: [propext, Classical.choice, Quot.sound]
'Jpy.C53_com' depends on axioms: [propext, Quot.sound]
'Jpy.C53_cap' depends on axioms: [propext, Quot.sound]
'Jpy.C53_plm' depends on axioms: [propext, Quot.sound]
'Jpy.C53_plt' depends on axioms: [propext, Quot.sound]
'Jpy.C53_siz' depends on axioms: [propext, Classical.choice, Quot.sound]
'Jpy.C53_capability' depends on axioms: [propext, Quot.sound]
'Jpy.C53_colr' depends on axioms: [propext, Classical.choice, Quot.sound]
'Jpy.C53_icc_text' depends on axioms: [propext, Classical.choice, Quot.sound]
'Jpy.C53_icc_flags_false' depends on axioms: [propext, Classical.choice, Quot.sound]
'Jpy.C53_prf' depends on axioms: [propext, Quot.sound]
'Jpy.C53_cpf' depends on axioms: [propext, Quot.sound]
'Jpy.C54_codestream' depends on axioms: [propext, Classical.choice, Quot.sound]
'Jpy.C54_box' depends on axioms: [propext, Classical.choice, Quot.sound]
'Jpy.C54_file' depends on axioms: [propext, Classical.choice, Quot.sound]
'Jpy.C54_bare' depends on axioms: [propext, Classical.choice, Quot.sound]
'Jpy.C55_capture' depends on axioms: [propext, Classical.choice, Quot.sound]
'Jpy.C55_capture_report' depends on axioms: [propext, Classical.choice, Quot.sound]
'Jpy.C55_capture_file' depends on axioms: [propext, Classical.choice, Quot.sound]
'Jpy.C55_table' depends on axioms: [propext, Classical.choice, Quot.sound]
'Jpy.C55_report' depends on axioms: [propext, Classical.choice, Quot.sound]
'Jpy.C55_file' depends on axioms: [propext, Classical.choice, Quot.sound]
'Jpy.C56_codestream' depends on axioms: [propext, Classical.choice, Quot.sound]
'Jpy.C56_box' depends on axioms: [propext, Classical.choice, Quot.sound]
'Jpy.C56_segment' depends on axioms: [propext, Classical.choice, Quot.sound]
'Jpy.C56_tree' depends on axioms: [propext, Classical.choice, Quot.sound]
'Jpy.C56_file' depends on axioms: [propext, Classical.choice, Quot.sound]
'Jpy.C56_report' depends on axioms: [propext, Classical.choice, Quot.sound]
'Jpy.C56_bare_report' depends on axioms: [propext, Classical.choice, Quot.sound]
'Jpy.C56_tilePart' depends on axioms: [propext, Classical.choice, Quot.sound]
'Jpy.C57_relaxed_partial' depends on axioms: [propext, Classical.choice, Quot.sound]
'Jpy.C57_valid_partial' depends on axioms: [propext, Classical.choice, Quot.sound]
'Jpy.C57_failed' depends on axioms: [propext, Classical.choice, Quot.sound]
'Jpy.C57_document_partial' depends on axioms: [propext, Classical.choice, Quot.sound]
'Jpy.C57_false' depends on axioms: [propext, Classical.choice, Quot.sound]
'Jpy.C57_false_lists' depends on axioms: [propext, Classical.choice, Quot.sound]
'Jpy.C57_false_type' depends on axioms: [propext, Classical.choice, Quot.sound]
'Jpy.C57_false_resolution' depends on axioms: [propext, Classical.choice, Quot.sound]
'Jpy.C57_false_invalid' depends on axioms: [propext, Classical.choice, Quot.sound]
'Jpy.C57_false_components' depends on axioms: [propext, Classical.choice, Quot.sound]
'Jpy.C58_codestream' depends on axioms: [propext, Classical.choice, Quot.sound]
'Jpy.C58_extract' depends on axioms: [propext, Classical.choice, Quot.sound]
'Jpy.C58_wrap' depends on axioms: [propext, Classical.choice, Quot.sound]
'Jpy.C58_wrappable' depends on axioms: [propext, Classical.choice, Quot.sound]
'Jpy.C58_report' depends on axioms: [propext, Classical.choice, Quot.sound]
'Jpy.C58_empty_image' depends on axioms: [propext, Classical.choice, Quot.sound]
'Jpy.C59_codestream' depends on axioms: [propext, Classical.choice, Quot.sound]
'Jpy.C59_packets' depends on axioms: [propext, Classical.choice, Quot.sound]
'Jpy.C59_file' depends on axioms: [propext, Classical.choice, Quot.sound]
'Jpy.C59_report' depends on axioms: [propext, Classical.choice, Quot.sound]
'Jpy.C59_conforming' depends on axioms: [propext, Classical.choice, Quot.sound]
'Jpy.C59_encoded' depends on axioms: [propext, Classical.choice, Quot.sound]
'Jpy.C59_conforming_report' depends on axioms: [propext, Classical.choice, Quot.sound]
'Jpy.C59_images' depends on axioms: [propext, Classical.choice, Quot.sound]
'Jpy.C60_contents' depends on axioms: [propext, Classical.choice, Quot.sound]
'Jpy.C60_unreadable' depends on axioms: [propext, Classical.choice, Quot.sound]
'Jpy.C61_command_line' depends on axioms: [propext, Classical.choice, Quot.sound]
'Jpy.C61_runs' depends on axioms: [propext, Classical.choice, Quot.sound]
'Jpy.C61_stops' depends on axioms: [propext, Classical.choice, Quot.sound]
'Jpy.C61_position' depends on axioms: [propext, Classical.choice, Quot.sound]
'Jpy.C61_order' depends on axioms: [propext, Classical.choice, Quot.sound]
'Jpy.C61_help' depends on axioms: [propext, Classical.choice, Quot.sound]
'Jpy.C61_version' depends on axioms: [propext, Classical.choice, Quot.sound]
'Jpy.C61_one_place' depends on axioms: [propext, Classical.choice, Quot.sound]
'Jpy.C62_boxes' depends on axioms: [propext, Classical.choice, Quot.sound]
'Jpy.C62_silent' depends on axioms: [propext, Classical.choice, Quot.sound]
'Jpy.C62_empty' depends on axioms: [propext, Classical.choice, Quot.sound]
'Jpy.C62_codestream' depends on axioms: [propext, Classical.choice, Quot.sound]
'Jpy.C62_cut_header' depends on axioms: [propext, Classical.choice, Quot.sound]
'Jpy.C63_partial' depends on axioms: [propext, Classical.choice, Quot.sound]
'Jpy.C63_trailing' depends on axioms: [propext, Classical.choice, Quot.sound]
'Jpy.C63_overlong' depends on axioms: [propext, Classical.choice, Quot.sound]
'Jpy.C63_false' depends on axioms: [propext, Classical.choice, Quot.sound]
'Jpy.C64_contents' depends on axioms: [propext, Classical.choice, Quot.sound]
'Jpy.C64_reported' depends on axioms: [propext, Classical.choice, Quot.sound]
'Jpy.C65_boxes' depends on axioms: [propext, Classical.choice, Quot.sound]
'Jpy.C65_insert' depends on axioms: [propext, Classical.choice, Quot.sound]
'Jpy.C65_exchange' depends on axioms: [propext, Classical.choice, Quot.sound]
'Jpy.C65_xml_box' depends on axioms: [propext, Classical.choice, Quot.sound]
'Jpy.C65_xml' depends on axioms: [propext, Classical.choice, Quot.sound]
'Jpy.C65_uuid' depends on axioms: [propext, Classical.choice, Quot.sound]
'Jpy.C65_header' depends on axioms: [propext, Classical.choice, Quot.sound]
'Jpy.C65_positions' depends on axioms: [propext, Classical.choice, Quot.sound]
'Jpy.C66_segments' depends on axioms: [propext, Classical.choice, Quot.sound]
'Jpy.C66_order' depends on axioms: [propext, Classical.choice, Quot.sound]
'Jpy.C66_insert' depends on axioms: [propext, Classical.choice, Quot.sound]
'Jpy.C66_comment' depends on axioms: [propext, Classical.choice, Quot.sound]
'Jpy.C66_unknown' depends on axioms: [propext, Classical.choice, Quot.sound]
'Jpy.C67_exact' depends on axioms: [propext, Classical.choice, Quot.sound]
'Jpy.C67_order' depends on axioms: [propext, Classical.choice, Quot.sound]
'Jpy.C67_file' depends on axioms: [propext, Classical.choice, Quot.sound]
'Jpy.C68_same_partial' depends on axioms: [propext, Classical.choice, Quot.sound]
'Jpy.C68_unlimited' depends on axioms: [propext, Classical.choice, Quot.sound]
'Jpy.C68_fails' depends on axioms: [propext, Classical.choice, Quot.sound]
'Jpy.C68_short' depends on axioms: [propext, Quot.sound]
'Jpy.C68_false' depends on axioms: [propext, Classical.choice, Quot.sound]
'Jpy.C69_mix_partial' depends on axioms: [propext, Classical.choice, Quot.sound]
'Jpy.C69_partial' depends on axioms: [propext, Classical.choice, Quot.sound]
'Jpy.C69_shared' depends on axioms: [propext, Classical.choice, Quot.sound]
'Jpy.C69_false' depends on axioms: [propext, Classical.choice, Quot.sound]
'Jpy.C69_palette' depends on axioms: [propext, Quot.sound]
'Jpy.C70_boxes_partial' depends on axioms: [propext, Classical.choice, Quot.sound]
'Jpy.C70_depth' depends on axioms: [propext, Classical.choice, Quot.sound]
'Jpy.C70_run_partial' depends on axioms: [propext, Classical.choice, Quot.sound]
'Jpy.C70_fails' depends on axioms: [propext, Classical.choice, Quot.sound]
'Jpy.C70_false' depends on axioms: [propext, Classical.choice, Quot.sound]
'Jpy.C70_crash' depends on axioms: [propext, Classical.choice, Quot.sound]
'Jpy.C71_same_program' depends on axioms: [propext, Classical.choice, Quot.sound]
'Jpy.C71_boxes' depends on axioms: [propext, Classical.choice, Quot.sound]
'Jpy.C71_codestream' depends on axioms: [propext, Classical.choice, Quot.sound]
'Jpy.C71_report_partial' depends on axioms: [propext, Classical.choice, Quot.sound]
'Jpy.C71_empty' depends on axioms: [propext, Classical.choice, Quot.sound]
'Jpy.C71_exact' depends on axioms: [propext, Classical.choice, Quot.sound]
'Jpy.C71_run' depends on axioms: [propext, Classical.choice, Quot.sound]
'Jpy.C71_silence' depends on axioms: [propext, Classical.choice, Quot.sound]
'Jpy.C71_false' depends on axioms: [propext, Classical.choice, Quot.sound]
'Jpy.C71_lost' depends on axioms: [propext, Classical.choice, Quot.sound]
'Jpy.C72_exact' depends on axioms: [propext, Classical.choice, Quot.sound]
'Jpy.C72_concat' depends on axioms: [propext, Classical.choice, Quot.sound]
'Jpy.C72_report' depends on axioms: [propext, Classical.choice, Quot.sound]
'Jpy.C72_inside' depends on axioms: [propext, Classical.choice, Quot.sound]
'Jpy.C72_files_partial' depends on axioms: [propext, Classical.choice, Quot.sound]
'Jpy.C72_boxes' depends on axioms: [propext, Classical.choice, Quot.sound]
'Jpy.C72_shown' depends on axioms: [propext, Classical.choice, Quot.sound]
'Jpy.C72_conforming' depends on axioms: [propext, Classical.choice, Quot.sound]
'Jpy.C72_false' depends on axioms: [propext, Classical.choice, Quot.sound]
'Jpy.C73_compare' depends on axioms: [propext, Classical.choice, Quot.sound]
'Jpy.C73_ceil' depends on axioms: [propext, Classical.choice, Quot.sound]
'Jpy.C73_int' depends on axioms: [propext, Classical.choice, Quot.sound]
'Jpy.C73_model_pos' depends on axioms: [propext, Classical.choice, Quot.sound]
'Jpy.C73_model' depends on axioms: [propext, Classical.choice, Quot.sound]
'Jpy.C73_tiles' depends on axioms: [propext, Classical.choice, Quot.sound]
'Jpy.C73_lengths' depends on axioms: [propext, Classical.choice, Quot.sound]
'Jpy.C73_ratio' depends on axioms: [propext, Classical.choice, Quot.sound]
'Jpy.C73_illuminant' depends on axioms: [propext, Classical.choice, Quot.sound]
'Jpy.C73_resolution' depends on axioms: [propext, Classical.choice, Quot.sound]
'Jpy.C73_resolution_error' depends on axioms: [propext, Classical.choice, Quot.sound]
'Jpy.C73_false' depends on axioms: [propext, Classical.choice, Quot.sound]
'Jpy.C73_ties' depends on axioms: [propext, Classical.choice, Quot.sound]
'Jpy.C74_ratio' depends on axioms: [propext, Classical.choice, Quot.sound]
'Jpy.C74_resolution_partial' depends on axioms: [propext, Classical.choice, Quot.sound]
'Jpy.C74_false' depends on axioms: [propext, Classical.choice, Quot.sound]
'Jpy.C75_text' depends on axioms: [propext, Classical.choice, Quot.sound]
'Jpy.C75_unique' depends on axioms: [propext, Classical.choice, Quot.sound]
'Jpy.C75_exists' depends on axioms: [propext, Classical.choice, Quot.sound]
'Jpy.C75_rounded' depends on axioms: [propext, Classical.choice, Quot.sound]
'Jpy.C75_ratio' depends on axioms: [propext, Classical.choice, Quot.sound]
'Jpy.C75_illuminant' depends on axioms: [propext, Classical.choice, Quot.sound]
'Jpy.C75_resolution_partial' depends on axioms: [propext, Classical.choice, Quot.sound]
'Jpy.C75_report' depends on axioms: [propext, Classical.choice, Quot.sound]
'Jpy.C75_mix' depends on axioms: [propext, Classical.choice, Quot.sound]
'Jpy.C75_false' depends on axioms: [propext, Classical.choice, Quot.sound]
'Jpy.C75_resolution_report_partial' depends on axioms: [propext, Classical.choice, Quot.sound]
'Jpy.C75_illuminant_report' depends on axioms: [propext, Classical.choice, Quot.sound]
'Jpy.C76_codestream' depends on axioms: [propext, Classical.choice, Quot.sound]
'Jpy.C76_box' depends on axioms: [propext, Classical.choice, Quot.sound]
'Jpy.C76_file' depends on axioms: [propext, Classical.choice, Quot.sound]
'Jpy.C76_report' depends on axioms: [propext, Classical.choice, Quot.sound]
'Jpy.C76_verdict' depends on axioms: [propext, Classical.choice, Quot.sound]
'Jpy.C76_depends' depends on axioms: [propext, Classical.choice, Quot.sound]
'Jpy.C77_codestream' depends on axioms: [propext, Classical.choice, Quot.sound]
'Jpy.C77_boxes' depends on axioms: [propext, Classical.choice, Quot.sound]
'Jpy.C77_start' depends on axioms: [propext, Classical.choice, Quot.sound]
'Jpy.C77_noticed' depends on axioms: [propext, Classical.choice, Quot.sound]
'Jpy.C77_report' depends on axioms: [propext, Classical.choice, Quot.sound]
'Jpy.C77_false' depends on axioms: [propext, Classical.choice, Quot.sound]
'Jpy.C78_complete' depends on axioms: [propext, Classical.choice, Quot.sound]
'Jpy.C78_kept' depends on axioms: [propext, Classical.choice, Quot.sound]
'Jpy.C79_file' depends on axioms: [propext, Classical.choice, Quot.sound]
'Jpy.C79_bare' depends on axioms: [propext, Classical.choice, Quot.sound]
'Jpy.C79_image' depends on axioms: [propext, Classical.choice, Quot.sound]
'Jpy.C79_codestream' depends on axioms: [propext, Classical.choice, Quot.sound]
'Jpy.C79_reserved' depends on axioms: [propext, Classical.choice, Quot.sound]
'Jpy.C80_report' depends on axioms: [propext, Classical.choice, Quot.sound]
'Jpy.C80_lengths' depends on axioms: [propext, Classical.choice, Quot.sound]
'Jpy.C80_valid' depends on axioms: [propext, Classical.choice, Quot.sound]
'Jpy.C81_context' depends on axioms: [propext, Classical.choice, Quot.sound]
'Jpy.C81_same' depends on axioms: [propext, Classical.choice, Quot.sound]
'Jpy.C81_fault' depends on axioms: [propext, Classical.choice, Quot.sound]
'Jpy.C81_segments' depends on axioms: [propext, Classical.choice, Quot.sound]
'Jpy.C82_properties' depends on axioms: [propext, Classical.choice, Quot.sound]
'Jpy.C82_outcome' depends on axioms: [propext, Classical.choice, Quot.sound]
'Jpy.C82_values' depends on axioms: [propext, Classical.choice, Quot.sound]
'Jpy.C82_tests' depends on axioms: [propext, Classical.choice, Quot.sound]
'Jpy.C82_failures' depends on axioms: [propext, Classical.choice, Quot.sound]
