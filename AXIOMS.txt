AdBlock.C01_matches	propext Quot.sound
AdBlock.C01_only_web_requests	propext Quot.sound
AdBlock.C02_blockable_protocols	propext Quot.sound
AdBlock.C02_length_only_excludes_ws	propext Quot.sound
AdBlock.C03_protocol_check_in_bounds	propext Quot.sound
AdBlock.C04_separators	propext Quot.sound
AdBlock.C05_host_has_no_separator	propext Quot.sound
AdBlock.C05_host_of_url	propext Classical.choice Quot.sound
AdBlock.C06_same_site	propext Quot.sound
AdBlock.C07_explicit_party_kept	propext Quot.sound
AdBlock.C07_other_bits_kept	propext Quot.sound
AdBlock.C07_party_classification	propext Quot.sound
AdBlock.C08_exceptions	propext Classical.choice Quot.sound
AdBlock.C08_literal_pattern	propext Classical.choice Quot.sound
AdBlock.C08_match_contains_parts	propext Classical.choice Quot.sound
AdBlock.C08_single_part	propext Classical.choice Quot.sound
AdBlock.C08_unanchored_exact	propext Classical.choice Quot.sound
AdBlock.C09_both_anchors	propext Classical.choice Quot.sound
AdBlock.C09_left_anchor	propext Quot.sound
AdBlock.C09_right_anchor	propext Classical.choice Quot.sound
AdBlock.C100_dot_counterexample	propext Classical.choice Quot.sound
AdBlock.C100_exception_partial	propext Classical.choice Quot.sound
AdBlock.C100_first_counterexample	propext Classical.choice Quot.sound
AdBlock.C101_fewer_tags	propext Classical.choice Quot.sound
AdBlock.C101_more_tags	propext Classical.choice Quot.sound
AdBlock.C101_other_tags	propext Classical.choice Quot.sound
AdBlock.C102_page_counterexample	propext Classical.choice Quot.sound
AdBlock.C102_page_partial	propext Classical.choice Quot.sound
AdBlock.C102_type_counterexample	propext Classical.choice Quot.sound
AdBlock.C102_type_partial	propext Classical.choice Quot.sound
AdBlock.C103_apart	propext Classical.choice Quot.sound
AdBlock.C103_interleaving	propext Classical.choice Quot.sound
AdBlock.C104_left_alone	propext Classical.choice Quot.sound
AdBlock.C104_no_exceptions	propext Classical.choice Quot.sound
AdBlock.C105_more_exceptions	propext Classical.choice Quot.sound
AdBlock.C105_more_rules	propext Classical.choice Quot.sound
AdBlock.C105_order	propext Classical.choice Quot.sound
AdBlock.C105_same_answer	propext Classical.choice Quot.sound
AdBlock.C106_numbers	propext Classical.choice Quot.sound
AdBlock.C106_order	propext Classical.choice Quot.sound
AdBlock.C106_total	propext Classical.choice Quot.sound
AdBlock.C107_one_name	propext Classical.choice Quot.sound
AdBlock.C107_reports	propext Classical.choice Quot.sound
AdBlock.C108_exactly	propext Classical.choice Quot.sound
AdBlock.C108_exceptions	propext Quot.sound
AdBlock.C108_reports_partial	propext Classical.choice Quot.sound
AdBlock.C108_two_domains	propext Quot.sound
AdBlock.C109_exact	propext Classical.choice Quot.sound
AdBlock.C109_no_domain_counterexample	propext Classical.choice Quot.sound
AdBlock.C109_reports_partial	propext Classical.choice Quot.sound
AdBlock.C109_tag_counterexample	propext Classical.choice Quot.sound
AdBlock.C10_host_anchored_exact	propext Classical.choice Quot.sound
AdBlock.C10_right_anchor_counterexample	propext Quot.sound
AdBlock.C10_stays_on_host	propext Quot.sound
AdBlock.C110_answers_partial	propext Classical.choice Quot.sound
AdBlock.C110_counterexample	propext Classical.choice Quot.sound
AdBlock.C110_found_partial	propext Classical.choice Quot.sound
AdBlock.C110_lists_partial	propext Classical.choice Quot.sound
AdBlock.C110_reports_counterexample	propext Classical.choice Quot.sound
AdBlock.C110_reports_partial	propext Classical.choice Quot.sound
AdBlock.C110_statistics	propext Classical.choice Quot.sound
AdBlock.C111_dot_counterexample	propext Classical.choice Quot.sound
AdBlock.C111_page_counterexample	propext Classical.choice Quot.sound
AdBlock.C111_redundant_domains_partial	propext Classical.choice Quot.sound
AdBlock.C112_same_types_partial	propext Classical.choice Quot.sound
AdBlock.C112_unknown_counterexample	propext Classical.choice Quot.sound
AdBlock.C113_again	propext Classical.choice Quot.sound
AdBlock.C113_aside	propext Classical.choice Quot.sound
AdBlock.C113_domains_partial	propext Classical.choice Quot.sound
AdBlock.C113_dot_counterexample	propext Classical.choice Quot.sound
AdBlock.C113_halves_partial	propext Classical.choice Quot.sound
AdBlock.C113_host_counterexample	propext Classical.choice Quot.sound
AdBlock.C113_order	propext Classical.choice Quot.sound
AdBlock.C113_rule_does_not_apply_partial	propext Classical.choice Quot.sound
AdBlock.C113_separator	propext Classical.choice Quot.sound
AdBlock.C113_split_partial	propext Classical.choice Quot.sound
AdBlock.C113_star_partial	propext Classical.choice Quot.sound
AdBlock.C113_stars_partial	propext Classical.choice Quot.sound
AdBlock.C113_tags_counterexample	propext Classical.choice Quot.sound
AdBlock.C113_tags_disabled_partial	propext Classical.choice Quot.sound
AdBlock.C113_tags_enabled	propext Classical.choice Quot.sound
AdBlock.C113_types_partial	propext Classical.choice Quot.sound
AdBlock.C113_unknown_counterexample	propext Classical.choice Quot.sound
AdBlock.C114_dot_counterexample	propext Classical.choice Quot.sound
AdBlock.C114_exception_partial	propext Classical.choice Quot.sound
AdBlock.C114_first_counterexample	propext Classical.choice Quot.sound
AdBlock.C114_host_only	propext Classical.choice Quot.sound
AdBlock.C114_left_alone	propext Classical.choice Quot.sound
AdBlock.C114_longer_partial	propext Classical.choice Quot.sound
AdBlock.C114_page_partial	propext Classical.choice Quot.sound
AdBlock.C114_party_counterexample	propext Classical.choice Quot.sound
AdBlock.C114_scheme	propext Classical.choice Quot.sound
AdBlock.C114_separator_counterexample	propext Classical.choice Quot.sound
AdBlock.C114_subdomain_page_partial	propext Classical.choice Quot.sound
AdBlock.C114_subdomain_partial	propext Classical.choice Quot.sound
AdBlock.C114_type	propext Classical.choice Quot.sound
AdBlock.C114_unknown_counterexample	propext Classical.choice Quot.sound
AdBlock.C114_user_counterexample	propext Classical.choice Quot.sound
AdBlock.C114_user_partial	propext Classical.choice Quot.sound
AdBlock.C115_all	propext Classical.choice Quot.sound
AdBlock.C115_apart	propext Classical.choice Quot.sound
AdBlock.C115_both	propext Classical.choice Quot.sound
AdBlock.C115_covered_counterexample	propext Classical.choice Quot.sound
AdBlock.C115_covered_partial	propext Classical.choice Quot.sound
AdBlock.C115_either_partial	propext Classical.choice Quot.sound
AdBlock.C115_fewer_tags	propext Classical.choice Quot.sound
AdBlock.C115_host_counterexample	propext Classical.choice Quot.sound
AdBlock.C115_interleaving	propext Classical.choice Quot.sound
AdBlock.C115_more_tags	propext Classical.choice Quot.sound
AdBlock.C115_neither_counterexample	propext Classical.choice Quot.sound
AdBlock.C115_neither_partial	propext Classical.choice Quot.sound
AdBlock.C115_one_by_one_partial	propext Classical.choice Quot.sound
AdBlock.C115_other_tags	propext Classical.choice Quot.sound
AdBlock.C115_repeated	propext Classical.choice Quot.sound
AdBlock.C115_several_partial	propext Classical.choice Quot.sound
AdBlock.C115_undone_partial	propext Classical.choice Quot.sound
AdBlock.C116_page	propext Classical.choice Quot.sound
AdBlock.C116_page_counterexample	propext Classical.choice Quot.sound
AdBlock.C116_type_counterexample	propext Classical.choice Quot.sound
AdBlock.C116_type_partial	propext Classical.choice Quot.sound
AdBlock.C117_anchored_counterexample	propext Classical.choice Quot.sound
AdBlock.C117_case_counterexample	propext Classical.choice Quot.sound
AdBlock.C117_elsewhere_counterexample	propext Classical.choice Quot.sound
AdBlock.C117_exact_partial	propext Classical.choice Quot.sound
AdBlock.C117_lower_partial	propext Classical.choice Quot.sound
AdBlock.C117_no_less_partial	propext Classical.choice Quot.sound
AdBlock.C117_no_more_partial	propext Classical.choice Quot.sound
AdBlock.C117_prefix_counterexample	propext Classical.choice Quot.sound
AdBlock.C117_separator_counterexample	propext Classical.choice Quot.sound
AdBlock.C117_tight_counterexample	propext Classical.choice Quot.sound
AdBlock.C11_domain_list_effect	propext Quot.sound
AdBlock.C11_most_specific_domain_decides	propext Classical.choice Quot.sound
AdBlock.C12_document	propext Quot.sound
AdBlock.C12_listed_types_suffice	propext Classical.choice Quot.sound
AdBlock.C12_never_excluded_types	propext Classical.choice Quot.sound
AdBlock.C12_no_context	propext Classical.choice Quot.sound
AdBlock.C12_only_listed_types	propext Classical.choice Quot.sound
AdBlock.C12_unknown_type_counterexample	propext Classical.choice Quot.sound
AdBlock.C12_unknown_type_partial	propext Classical.choice Quot.sound
AdBlock.C13_first_party_counterexample	propext Quot.sound
AdBlock.C13_first_party_ignored	propext Quot.sound
AdBlock.C13_third_party_by_host_partial	propext Classical.choice Quot.sound
AdBlock.C13_third_party_partial	propext Classical.choice Quot.sound
AdBlock.C14_unsupported_never_matches	propext Classical.choice Quot.sound
AdBlock.C14_unsupported_option_text	propext Classical.choice Quot.sound
AdBlock.C15_in_client	propext Classical.choice Quot.sound
AdBlock.C15_prefilter_transparent	propext Classical.choice Quot.sound
AdBlock.C16_leftmost_usable_window	propext Classical.choice Quot.sound
AdBlock.C16_rule_fingerprint	propext Quot.sound
AdBlock.C17_bloom_lookup_hits	propext Classical.choice Quot.sound
AdBlock.C17_fingerprint_in_url	propext Classical.choice Quot.sound
AdBlock.C18_blank_line	propext Classical.choice Quot.sound
AdBlock.C18_comment_line	propext Classical.choice Quot.sound
AdBlock.C18_comments_and_blank_lines	propext Classical.choice Quot.sound
AdBlock.C19_line_ends	propext Classical.choice Quot.sound
AdBlock.C19_piecewise	propext Classical.choice Quot.sound
AdBlock.C20_arrays_filled	propext Classical.choice Quot.sound
AdBlock.C20_no_overflow	propext Quot.sound
AdBlock.C21_counterexample_bar_in_host	propext Classical.choice Quot.sound
AdBlock.C21_counterexample_long_domain	propext Classical.choice Quot.sound
AdBlock.C21_counterexample_long_line	propext Classical.choice Quot.sound
AdBlock.C21_exact	propext Classical.choice Quot.sound
AdBlock.C21_list_exact	propext Classical.choice Quot.sound
AdBlock.C21_memory_safe_partial	propext Classical.choice Quot.sound
AdBlock.C22_domain_and_tag	propext Classical.choice Quot.sound
AdBlock.C22_every_line	propext Classical.choice Quot.sound
AdBlock.C22_rule_text	propext Classical.choice Quot.sound
AdBlock.C23_defined	propext Classical.choice Quot.sound
AdBlock.C23_exact	propext Classical.choice Quot.sound
AdBlock.C23_reference	propext Classical.choice Quot.sound
AdBlock.C23_short_urls	propext Quot.sound
AdBlock.C24_agree_partial	propext Classical.choice Quot.sound
AdBlock.C24_counterexample	propext Classical.choice Quot.sound
AdBlock.C24_find_exact	propext Classical.choice Quot.sound
AdBlock.C24_find_reports_more	propext Classical.choice Quot.sound
AdBlock.C25_exceptions_override	propext Classical.choice Quot.sound
AdBlock.C25_text	propext Classical.choice Quot.sound
AdBlock.C26_counterexample	propext Classical.choice Quot.sound
AdBlock.C26_monotone_partial	propext Classical.choice Quot.sound
AdBlock.C26_parse_partial	propext Classical.choice Quot.sound
AdBlock.C26_text_partial	propext Classical.choice Quot.sound
AdBlock.C27_counterexample	propext Classical.choice Quot.sound
AdBlock.C27_important_ignored	propext Quot.sound
AdBlock.C27_important_ignored_by_client	propext Classical.choice Quot.sound
AdBlock.C27_never_honoured	propext Classical.choice Quot.sound
AdBlock.C28_find_reports	propext Classical.choice Quot.sound
AdBlock.C28_reports	propext Classical.choice Quot.sound
AdBlock.C29_detection_does_not_interfere	propext Classical.choice Quot.sound
AdBlock.C29_queries_do_not_interfere	propext Classical.choice Quot.sound
AdBlock.C29_queries_keep_rules	propext Quot.sound
AdBlock.C30_annotation	propext Classical.choice Quot.sound
AdBlock.C30_counterexample	propext Classical.choice Quot.sound
AdBlock.C30_disabled_partial	propext Classical.choice Quot.sound
AdBlock.C30_enabled	propext Classical.choice Quot.sound
AdBlock.C30_never_reported	propext Classical.choice Quot.sound
AdBlock.C30_text_disabled_partial	propext Classical.choice Quot.sound
AdBlock.C30_text_enabled	propext Classical.choice Quot.sound
AdBlock.C31_tags	propext Classical.choice Quot.sound
AdBlock.C31_text	propext Classical.choice Quot.sound
AdBlock.C32_empty_blocks_nothing	propext Quot.sound
AdBlock.C32_until_loading	propext Quot.sound
AdBlock.C33_clear_forgets	propext Classical.choice Quot.sound
AdBlock.C34_host_rule_blocks	propext Classical.choice Quot.sound
AdBlock.C34_in_list	propext Classical.choice Quot.sound
AdBlock.C34_limits	propext Quot.sound
AdBlock.C35_empty_domains_counterexample	propext Quot.sound
AdBlock.C35_empty_text_counterexample	propext Quot.sound
AdBlock.C35_exact	propext Classical.choice Quot.sound
AdBlock.C35_parsed_rules	propext Classical.choice Quot.sound
AdBlock.C35_round_trip_partial	propext Classical.choice Quot.sound
AdBlock.C35_tag_counterexample	propext Quot.sound
AdBlock.C36_domain	propext Quot.sound
AdBlock.C36_exact	propext Classical.choice Quot.sound
AdBlock.C36_rule_partial	propext Classical.choice Quot.sound
AdBlock.C37_exact	propext Classical.choice Quot.sound
AdBlock.C37_no_domain_counterexample	propext Classical.choice Quot.sound
AdBlock.C37_no_text_counterexample	propext Classical.choice Quot.sound
AdBlock.C37_round_trip_partial	propext Classical.choice Quot.sound
AdBlock.C37_verdict_counterexample	propext Classical.choice Quot.sound
AdBlock.C38_domain	propext Quot.sound
AdBlock.C38_entry	propext Quot.sound
AdBlock.C38_rules	propext Classical.choice Quot.sound
AdBlock.C38_size	propext Classical.choice Quot.sound
AdBlock.C39_domain_counterexample	propext Quot.sound
AdBlock.C39_domain_partial	propext
AdBlock.C39_no_header	propext Quot.sound
AdBlock.C39_overflow_counterexample	propext
AdBlock.C39_rule_partial	propext Quot.sound
AdBlock.C40_all_readable_partial	propext Classical.choice Quot.sound
AdBlock.C40_counterexample	propext Classical.choice Quot.sound
AdBlock.C40_partial	propext Classical.choice Quot.sound
AdBlock.C41_bits_distinct	propext Quot.sound
AdBlock.C41_documented_options	propext Classical.choice Quot.sound
AdBlock.C41_meaning	propext Quot.sound
AdBlock.C41_names	
AdBlock.C41_option_list	propext Classical.choice Quot.sound
AdBlock.C41_prefixes_accepted	propext Quot.sound
AdBlock.C41_unknown	propext Quot.sound
AdBlock.C42_null_dereference	propext Classical.choice Quot.sound
AdBlock.C42_over_long_line	propext Classical.choice Quot.sound
AdBlock.C43_preserved_text	propext Classical.choice Quot.sound
AdBlock.C43_regex	propext Classical.choice Quot.sound
AdBlock.C44_page_rules	propext Classical.choice Quot.sound
AdBlock.C44_page_rules_find	propext Classical.choice Quot.sound
AdBlock.C44_text	propext Classical.choice Quot.sound
AdBlock.C45_index_transparent	propext Classical.choice Quot.sound
AdBlock.C45_miss_is_right	propext Classical.choice Quot.sound
AdBlock.C46_bad_fingerprints_invisible	propext Classical.choice Quot.sound
AdBlock.C46_find	propext Classical.choice Quot.sound
AdBlock.C46_index_invisible	propext Classical.choice Quot.sound
AdBlock.C46_same_rules	propext Quot.sound
AdBlock.C47_counterexample	propext Quot.sound
AdBlock.C47_exact	propext Classical.choice Quot.sound
AdBlock.C47_exact_unterminated	propext Classical.choice Quot.sound
AdBlock.C47_exact_unterminated_right	propext Quot.sound
AdBlock.C47_hash_set_counterexample	propext Quot.sound
AdBlock.C47_in_bounds_for_url_partial	propext Classical.choice Quot.sound
AdBlock.C47_in_bounds_partial	propext Classical.choice Quot.sound
AdBlock.C47_in_bounds_unterminated_partial	propext Classical.choice Quot.sound
AdBlock.C47_rule_text	propext Classical.choice Quot.sound
AdBlock.C48_array_of_lists	propext Classical.choice Quot.sound
AdBlock.C48_extra_rules_once	propext Classical.choice Quot.sound
AdBlock.C48_lines	propext Classical.choice Quot.sound
AdBlock.C48_list_url	propext Classical.choice Quot.sound
AdBlock.C48_list_urls	propext Classical.choice Quot.sound
AdBlock.C48_rewriting	propext
AdBlock.C48_twice	propext Classical.choice Quot.sound
AdBlock.C48_verdicts	propext Classical.choice Quot.sound
AdBlock.C49_counterexample	propext Classical.choice Quot.sound
AdBlock.C49_exact	propext Classical.choice Quot.sound
AdBlock.C49_partial	propext Classical.choice Quot.sound
AdBlock.C50_counterexample	propext Classical.choice Quot.sound
AdBlock.C50_exact	propext Classical.choice Quot.sound
AdBlock.C50_stable_partial	propext Classical.choice Quot.sound
AdBlock.C51_loading_twice	propext Classical.choice Quot.sound
AdBlock.C51_repeated_rules	propext Classical.choice Quot.sound
AdBlock.C51_repeated_rules_find	propext Classical.choice Quot.sound
AdBlock.C51_text	propext Classical.choice Quot.sound
AdBlock.C52_counterexample	propext Classical.choice Quot.sound
AdBlock.C52_lines_partial	propext Classical.choice Quot.sound
AdBlock.C52_order_find_partial	propext Classical.choice Quot.sound
AdBlock.C52_order_partial	propext Classical.choice Quot.sound
AdBlock.C52_text_partial	propext Classical.choice Quot.sound
AdBlock.C53_behavioural_options	propext Classical.choice Quot.sound
AdBlock.C53_collapse_and_donottrack	propext Classical.choice Quot.sound
AdBlock.C53_counterexample	propext Classical.choice Quot.sound
AdBlock.C53_rule	propext Classical.choice Quot.sound
AdBlock.C53_text	propext Classical.choice Quot.sound
AdBlock.C54_collects	propext Quot.sound
AdBlock.C54_kept	propext Quot.sound
AdBlock.C54_matches	propext Quot.sound
AdBlock.C54_origin	propext Quot.sound
AdBlock.C54_others	propext Quot.sound
AdBlock.C54_query	propext Quot.sound
AdBlock.C55_blocked_requests	propext Quot.sound
AdBlock.C55_matches	propext Quot.sound
AdBlock.C55_monotone	propext Quot.sound
AdBlock.C55_query	propext Quot.sound
AdBlock.C55_told	propext Classical.choice Quot.sound
AdBlock.C56_counterexample	propext Quot.sound
AdBlock.C56_partial	propext Classical.choice Quot.sound
AdBlock.C57_counterexample_host_rules	propext Quot.sound
AdBlock.C57_counterexample_twice	propext Quot.sound
AdBlock.C57_determined_partial	propext Quot.sound
AdBlock.C57_getFilters_is_invisible	propext Classical.choice Quot.sound
AdBlock.C57_getFilters_reports_partial	propext Classical.choice Quot.sound
AdBlock.C57_one_name_partial	propext Classical.choice Quot.sound
AdBlock.C58_counterexample	propext Quot.sound
AdBlock.C58_listed_hosts_are_blocked	propext Classical.choice Quot.sound
AdBlock.C58_nothing_else_is_blocked	propext Classical.choice Quot.sound
AdBlock.C58_queries_are_safe_partial	propext Classical.choice Quot.sound
AdBlock.C59_every_list	propext Classical.choice Quot.sound
AdBlock.C59_every_list_exact	propext Classical.choice Quot.sound
AdBlock.C59_safe_lists	propext Classical.choice Quot.sound
AdBlock.C59_session_exact	propext Classical.choice Quot.sound
AdBlock.C59_session_partial	propext Classical.choice Quot.sound
AdBlock.C59_text_exact	propext Classical.choice Quot.sound
AdBlock.C59_text_to_verdict_partial	propext Classical.choice Quot.sound
AdBlock.C60_complete	propext Classical.choice Quot.sound
AdBlock.C60_complete_partial	propext Classical.choice Quot.sound
AdBlock.C60_cut_off_counterexample	propext Classical.choice Quot.sound
AdBlock.C60_header_counterexample	propext Quot.sound
AdBlock.C61_defined_partial	propext Classical.choice Quot.sound
AdBlock.C61_host_rule_counterexample	propext Classical.choice Quot.sound
AdBlock.C61_host_rule_found_counterexample	propext Quot.sound
AdBlock.C61_no_page_counterexample	propext Quot.sound
AdBlock.C61_page_undefined_counterexample	propext Quot.sound
AdBlock.C61_reloaded_counterexample	propext Classical.choice Quot.sound
AdBlock.C61_reloaded_found_counterexample	propext Classical.choice Quot.sound
AdBlock.C61_report_partial	propext Classical.choice Quot.sound
AdBlock.C61_text_exact	propext Classical.choice Quot.sound
AdBlock.C61_text_partial	propext Classical.choice Quot.sound
AdBlock.C62_counterexample	propext Classical.choice Quot.sound
AdBlock.C62_exact	propext Classical.choice Quot.sound
AdBlock.C62_reloading_is_invisible_partial	propext Classical.choice Quot.sound
AdBlock.C63_counterexample	propext Classical.choice Quot.sound
AdBlock.C63_data_file_partial	propext Classical.choice Quot.sound
AdBlock.C63_exact	propext Classical.choice Quot.sound
AdBlock.C63_file_is_written	propext Classical.choice Quot.sound
AdBlock.C63_lists_partial	propext Classical.choice Quot.sound
AdBlock.C63_malware_counterexample	propext Quot.sound
AdBlock.C63_region_partial	propext Classical.choice Quot.sound
AdBlock.C63_sample_partial	propext Classical.choice Quot.sound
AdBlock.C63_sites_do_not_matter	propext Quot.sound
AdBlock.C63_text_exact	propext Classical.choice Quot.sound
AdBlock.C63_text_partial	propext Classical.choice Quot.sound
AdBlock.C64_counts	propext Quot.sound
AdBlock.C64_discover_counterexample	propext Quot.sound
AdBlock.C65_backslash_counterexample	propext Quot.sound
AdBlock.C65_header_partial	propext Quot.sound
AdBlock.C65_not_enabled_counterexample	
AdBlock.C65_quote_counterexample	propext Quot.sound
AdBlock.C65_regenerated_partial	propext Classical.choice Quot.sound
AdBlock.C66_saved_session_exact	propext Classical.choice Quot.sound
AdBlock.C66_saved_session_partial	propext Classical.choice Quot.sound
AdBlock.C67_fits	propext Classical.choice Quot.sound
AdBlock.C67_size	propext Classical.choice Quot.sound
AdBlock.C68_empty_file_counterexample	propext Classical.choice Quot.sound
AdBlock.C68_found_iff	propext Classical.choice Quot.sound
AdBlock.C68_header_counterexample	propext Classical.choice Quot.sound
AdBlock.C68_header_partial	propext Classical.choice Quot.sound
AdBlock.C68_known	propext Classical.choice Quot.sound
AdBlock.C68_malware_counterexample	propext Classical.choice Quot.sound
AdBlock.C68_names_distinct	propext Quot.sound
AdBlock.C68_run	propext Classical.choice Quot.sound
AdBlock.C68_unknown	propext Classical.choice Quot.sound
AdBlock.C68_verdicts	propext Classical.choice Quot.sound
AdBlock.C69_all_manifests	propext Quot.sound
AdBlock.C69_manifest	propext Quot.sound
AdBlock.C70_command_line_partial	
AdBlock.C70_names	propext
AdBlock.C70_rule_names_counterexample	
AdBlock.C70_tool_counterexample	propext Classical.choice Quot.sound
AdBlock.C70_types	propext Quot.sound
AdBlock.C70_unknown_name_counterexample	propext
AdBlock.C70_verdict_exact	propext Classical.choice Quot.sound
AdBlock.C70_verdict_partial	propext Classical.choice Quot.sound
AdBlock.C71_html_counterexample	propext Classical.choice Quot.sound
AdBlock.C71_numbers	propext Classical.choice Quot.sound
AdBlock.C71_reloaded	propext Classical.choice Quot.sound
AdBlock.C71_total_partial	propext Classical.choice Quot.sound
AdBlock.C72_damaged_counterexample	propext Classical.choice Quot.sound
AdBlock.C72_discover_counterexample	propext Quot.sound
AdBlock.C72_discover_exact	propext Classical.choice Quot.sound
AdBlock.C72_discover_host_counterexample	propext Classical.choice Quot.sound
AdBlock.C72_discover_partial	propext Classical.choice Quot.sound
AdBlock.C72_file	propext Quot.sound
AdBlock.C72_into_agrees	propext Quot.sound
AdBlock.C72_list_exact	propext Classical.choice Quot.sound
AdBlock.C72_list_partial	propext Classical.choice Quot.sound
AdBlock.C72_no_source	propext Classical.choice Quot.sound
AdBlock.C72_refused	propext Quot.sound
AdBlock.C72_refused_no_error	propext Quot.sound
AdBlock.C72_saved_exact	propext Classical.choice Quot.sound
AdBlock.C72_saved_partial	propext Classical.choice Quot.sound
AdBlock.C72_source	propext Classical.choice Quot.sound
AdBlock.C72_stats	propext Classical.choice Quot.sound
AdBlock.C72_stats_output_counterexample	propext Quot.sound
AdBlock.C72_verdict_exact	propext Classical.choice Quot.sound
AdBlock.C72_verdict_partial	propext Classical.choice Quot.sound
AdBlock.C73_broken_list_counterexample	propext Classical.choice Quot.sound
AdBlock.C73_no_file	propext Quot.sound
AdBlock.C73_perf_exact	propext Classical.choice Quot.sound
AdBlock.C73_perf_partial	propext Classical.choice Quot.sound
AdBlock.C73_sample_exact	propext Classical.choice Quot.sound
AdBlock.C73_sample_partial	propext Classical.choice Quot.sound
AdBlock.C73_second_list_counterexample	propext Classical.choice Quot.sound
AdBlock.C73_words	propext Quot.sound
AdBlock.C74_argument	propext Classical.choice Quot.sound
AdBlock.C74_exact	propext Classical.choice Quot.sound
AdBlock.C74_fingerprint_counterexample	propext Classical.choice Quot.sound
AdBlock.C74_lines	propext Classical.choice Quot.sound
AdBlock.C74_no_text_counterexample	propext Quot.sound
AdBlock.C74_nul_counterexample	propext Classical.choice Quot.sound
AdBlock.C74_nul_found_counterexample	propext Classical.choice Quot.sound
AdBlock.C74_parts	propext Classical.choice Quot.sound
AdBlock.C74_patterns	propext Classical.choice Quot.sound
AdBlock.C74_plain_rule	propext Classical.choice Quot.sound
AdBlock.C74_preprocessing	propext Classical.choice Quot.sound
AdBlock.C74_round_trip	propext Classical.choice Quot.sound
AdBlock.C74_session_partial	propext Classical.choice Quot.sound
AdBlock.C74_told_partial	propext Classical.choice Quot.sound
AdBlock.C74_undefined_counterexample	propext Classical.choice Quot.sound
AdBlock.C74_verdict_partial	propext Classical.choice Quot.sound
AdBlock.C75_cleanup_counterexample	propext Quot.sound
AdBlock.C75_find_counterexample	propext Classical.choice Quot.sound
AdBlock.C75_not_a_buffer	propext Quot.sound
AdBlock.C75_program_partial	propext Classical.choice Quot.sound
AdBlock.C76_components	propext Quot.sound
AdBlock.C76_distinct	
AdBlock.C77_default	propext Classical.choice Quot.sound
AdBlock.C77_for_everyone	propext Classical.choice Quot.sound
AdBlock.C77_found	propext Classical.choice Quot.sound
AdBlock.C77_groups	propext Classical.choice Quot.sound
AdBlock.C77_languages	propext Classical.choice Quot.sound
AdBlock.C77_not_found	propext Classical.choice Quot.sound
AdBlock.C77_objects	propext Classical.choice Quot.sound
AdBlock.C77_own_list	propext Classical.choice Quot.sound
AdBlock.C78_backups_kept	propext Quot.sound
AdBlock.C78_exit_code	propext Quot.sound
AdBlock.C78_history	propext Quot.sound
AdBlock.C78_interrupted	propext Classical.choice Quot.sound
AdBlock.C78_lists	propext Classical.choice Quot.sound
AdBlock.C78_no_directory	propext
AdBlock.C78_production	propext Quot.sound
AdBlock.C78_production_only	propext Quot.sound
AdBlock.C78_same_second_counterexample	propext
AdBlock.C78_single	propext Quot.sound
AdBlock.C78_single_as_whole	propext Quot.sound
AdBlock.C78_test_counterexample	propext Quot.sound
AdBlock.C78_test_only	propext Quot.sound
AdBlock.C78_test_partial	propext Quot.sound
AdBlock.C78_version	
AdBlock.C79_added_line	propext Classical.choice Quot.sound
AdBlock.C79_html_rules_leave_traces	propext Quot.sound
AdBlock.C79_silent_lines	propext Classical.choice Quot.sound
AdBlock.C80_agrees	propext Quot.sound
AdBlock.C80_blocks_nothing_partial	propext Quot.sound
AdBlock.C80_dat_file_agrees	propext Quot.sound
AdBlock.C80_dat_file_counterexample	propext Classical.choice Quot.sound
AdBlock.C80_dat_file_unreadable	propext
AdBlock.C80_find_counterexample	propext Classical.choice Quot.sound
AdBlock.C80_matches_counterexample	propext Classical.choice Quot.sound
AdBlock.C80_nothing_old	propext Quot.sound
AdBlock.C80_recovers	propext Classical.choice Quot.sound
AdBlock.C80_tags	propext Quot.sound
AdBlock.C80_undamaged	propext Classical.choice Quot.sound
AdBlock.C81_order_of_options	propext Classical.choice Quot.sound
AdBlock.C82_double_star_counterexample	propext Classical.choice Quot.sound
AdBlock.C82_literal_star_counterexample	propext Classical.choice Quot.sound
AdBlock.C82_redundant_stars_partial	propext Classical.choice Quot.sound
AdBlock.C83_host_counterexample	propext Classical.choice Quot.sound
AdBlock.C83_split_partial	propext Classical.choice Quot.sound
AdBlock.C84_excluding_counterexample	propext Classical.choice Quot.sound
AdBlock.C84_host_counterexample	propext Classical.choice Quot.sound
AdBlock.C84_rule_does_not_apply_partial	propext Classical.choice Quot.sound
AdBlock.C85_covered_partial	propext Classical.choice Quot.sound
AdBlock.C85_exceptions_undo_partial	propext Classical.choice Quot.sound
AdBlock.C85_excluding_counterexample	propext Classical.choice Quot.sound
AdBlock.C85_host_counterexample	propext Classical.choice Quot.sound
AdBlock.C86_page_partial	propext Classical.choice Quot.sound
AdBlock.C86_type	propext Classical.choice Quot.sound
AdBlock.C86_unknown_counterexample	propext Classical.choice Quot.sound
AdBlock.C87_covered_partial	propext Classical.choice Quot.sound
AdBlock.C87_host_counterexample	propext Classical.choice Quot.sound
AdBlock.C88_host_counterexample	propext Classical.choice Quot.sound
AdBlock.C88_lower_partial	propext Classical.choice Quot.sound
AdBlock.C88_path_counterexample	propext Classical.choice Quot.sound
AdBlock.C89_host_counterexample	propext Classical.choice Quot.sound
AdBlock.C89_party_partial	propext Classical.choice Quot.sound
AdBlock.C89_type_partial	propext Classical.choice Quot.sound
AdBlock.C89_unknown_counterexample	propext Classical.choice Quot.sound
AdBlock.C90_blob_counterexample	propext Quot.sound
AdBlock.C90_other_host_partial	propext Classical.choice Quot.sound
AdBlock.C90_password_counterexample	propext Classical.choice Quot.sound
AdBlock.C90_subdomain_partial	propext Classical.choice Quot.sound
AdBlock.C90_user_counterexample	propext Classical.choice Quot.sound
AdBlock.C91_anchored_counterexample	propext Classical.choice Quot.sound
AdBlock.C91_elsewhere_counterexample	propext Classical.choice Quot.sound
AdBlock.C91_exact_partial	propext Classical.choice Quot.sound
AdBlock.C91_no_less_partial	propext Classical.choice Quot.sound
AdBlock.C91_no_more_partial	propext Classical.choice Quot.sound
AdBlock.C91_prefix_counterexample	propext Classical.choice Quot.sound
AdBlock.C91_separator_counterexample	propext Classical.choice Quot.sound
AdBlock.C91_tight_counterexample	propext Classical.choice Quot.sound
AdBlock.C92_exception_partial	propext Classical.choice Quot.sound
AdBlock.C92_longer_partial	propext Classical.choice Quot.sound
AdBlock.C92_separator_counterexample	propext Classical.choice Quot.sound
AdBlock.C93_scheme	propext Classical.choice Quot.sound
AdBlock.C94_dot_counterexample	propext Classical.choice Quot.sound
AdBlock.C94_exception_partial	propext Classical.choice Quot.sound
AdBlock.C94_subdomain_partial	propext Classical.choice Quot.sound
AdBlock.C95_dot_counterexample	propext Classical.choice Quot.sound
AdBlock.C95_party_counterexample	propext Classical.choice Quot.sound
AdBlock.C95_subdomain_page_partial	propext Classical.choice Quot.sound
AdBlock.C96_both_counterexample	propext Classical.choice Quot.sound
AdBlock.C96_both_partial	propext Classical.choice Quot.sound
AdBlock.C96_either_partial	propext Classical.choice Quot.sound
AdBlock.C96_neither_counterexample	propext Classical.choice Quot.sound
AdBlock.C96_neither_partial	propext Classical.choice Quot.sound
AdBlock.C96_several_partial	propext Classical.choice Quot.sound
AdBlock.C97_excluding_counterexample	propext Classical.choice Quot.sound
AdBlock.C97_host_counterexample	propext Classical.choice Quot.sound
AdBlock.C97_one_by_one_partial	propext Classical.choice Quot.sound
AdBlock.C98_dot_counterexample	propext Classical.choice Quot.sound
AdBlock.C98_first_counterexample	propext Classical.choice Quot.sound
AdBlock.C98_host_counterexample	propext Classical.choice Quot.sound
AdBlock.C98_separator	propext Classical.choice Quot.sound
AdBlock.C98_star_partial	propext Classical.choice Quot.sound
AdBlock.C99_host_only	propext Classical.choice Quot.sound
