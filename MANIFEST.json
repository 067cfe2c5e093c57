{
 "claims": [
  {
   "property": "C01",
   "status": "proved",
   "theorems": [
    "AdBlock.C01_only_web_requests",
    "AdBlock.C01_matches"
   ],
   "note": "For every client state, reachable or not, both query functions."
  },
  {
   "property": "C02",
   "status": "proved",
   "theorems": [
    "AdBlock.C02_blockable_protocols",
    "AdBlock.C02_length_only_excludes_ws"
   ],
   "note": "Both answers characterised for every byte string."
  },
  {
   "property": "C03",
   "status": "proved",
   "theorems": [
    "AdBlock.C03_protocol_check_in_bounds"
   ],
   "note": "Holds for every string and any length argument; reads past the NUL would be the outcome ub."
  },
  {
   "property": "C04",
   "status": "proved",
   "theorems": [
    "AdBlock.C04_separators"
   ],
   "note": ""
  },
  {
   "property": "C05",
   "status": "proved",
   "theorems": [
    "AdBlock.C05_host_of_url",
    "AdBlock.C05_host_has_no_separator"
   ],
   "note": ""
  },
  {
   "property": "C06",
   "status": "proved",
   "theorems": [
    "AdBlock.C06_same_site"
   ],
   "note": ""
  },
  {
   "property": "C07",
   "status": "proved",
   "theorems": [
    "AdBlock.C07_party_classification",
    "AdBlock.C07_explicit_party_kept",
    "AdBlock.C07_other_bits_kept"
   ],
   "note": ""
  },
  {
   "property": "C08",
   "status": "proved",
   "theorems": [
    "AdBlock.C08_unanchored_exact",
    "AdBlock.C08_match_contains_parts",
    "AdBlock.C08_literal_pattern",
    "AdBlock.C08_single_part",
    "AdBlock.C08_exceptions"
   ],
   "note": "Exact characterisation (with the documented exceptions, shown to be real in C08_exceptions), and the plain statement for the patterns not touched by them."
  },
  {
   "property": "C09",
   "status": "proved",
   "theorems": [
    "AdBlock.C09_both_anchors",
    "AdBlock.C09_right_anchor",
    "AdBlock.C09_left_anchor"
   ],
   "note": ""
  },
  {
   "property": "C10",
   "status": "proved",
   "theorems": [
    "AdBlock.C10_stays_on_host",
    "AdBlock.C10_host_anchored_exact",
    "AdBlock.C10_right_anchor_counterexample"
   ],
   "note": "As stated (rules without right anchor); the exception is shown by C10_right_anchor_counterexample."
  },
  {
   "property": "C11",
   "status": "proved",
   "theorems": [
    "AdBlock.C11_most_specific_domain_decides",
    "AdBlock.C11_domain_list_effect"
   ],
   "note": ""
  },
  {
   "property": "C12",
   "status": "partial",
   "theorems": [
    "AdBlock.C12_only_listed_types",
    "AdBlock.C12_never_excluded_types",
    "AdBlock.C12_no_context",
    "AdBlock.C12_document",
    "AdBlock.C12_listed_types_suffice",
    "AdBlock.C12_unknown_type_counterexample",
    "AdBlock.C12_unknown_type_partial"
   ],
   "note": "False for rules that exclude types when the type is unknown but the domain of the page is given: C12_unknown_type_counterexample. C12_unknown_type_partial is the rest of this part; the other parts hold in full."
  },
  {
   "property": "C13",
   "status": "partial",
   "theorems": [
    "AdBlock.C13_third_party_partial",
    "AdBlock.C13_third_party_by_host_partial",
    "AdBlock.C13_first_party_ignored",
    "AdBlock.C13_first_party_counterexample"
   ],
   "note": "third-party and ~third-party proved. The equivalence of first-party with ~third-party is false in the code: C13_first_party_ignored proves that first-party never has any effect, C13_first_party_counterexample gives a witness."
  },
  {
   "property": "C14",
   "status": "proved",
   "theorems": [
    "AdBlock.C14_unsupported_never_matches",
    "AdBlock.C14_unsupported_option_text"
   ],
   "note": ""
  },
  {
   "property": "C15",
   "status": "proved",
   "theorems": [
    "AdBlock.C15_prefilter_transparent",
    "AdBlock.C15_in_client"
   ],
   "note": ""
  },
  {
   "property": "C16",
   "status": "proved",
   "theorems": [
    "AdBlock.C16_leftmost_usable_window",
    "AdBlock.C16_rule_fingerprint"
   ],
   "note": ""
  },
  {
   "property": "C17",
   "status": "proved",
   "theorems": [
    "AdBlock.C17_fingerprint_in_url",
    "AdBlock.C17_bloom_lookup_hits"
   ],
   "note": ""
  },
  {
   "property": "C18",
   "status": "proved",
   "theorems": [
    "AdBlock.C18_comments_and_blank_lines",
    "AdBlock.C18_blank_line",
    "AdBlock.C18_comment_line"
   ],
   "note": "Per line and for whole lists (equality of the resulting client)."
  },
  {
   "property": "C19",
   "status": "proved",
   "theorems": [
    "AdBlock.C19_piecewise",
    "AdBlock.C19_line_ends"
   ],
   "note": ""
  },
  {
   "property": "C20",
   "status": "proved",
   "theorems": [
    "AdBlock.C20_arrays_filled",
    "AdBlock.C20_no_overflow"
   ],
   "note": ""
  },
  {
   "property": "C21",
   "status": "partial",
   "theorems": [
    "AdBlock.C21_list_exact",
    "AdBlock.C21_exact",
    "AdBlock.C21_memory_safe_partial",
    "AdBlock.C21_counterexample_bar_in_host",
    "AdBlock.C21_counterexample_long_line",
    "AdBlock.C21_counterexample_long_domain"
   ],
   "note": "False in general: three universal counterexamples (bar inside a host, over-long host anchored line, long domain). Proved for lists of safe lines (Spec.SafeLine), for every prior state of the client. C21_exact gives the condition (Spec.Loadable, for each line) that is necessary and sufficient for every list and client; C21_list_exact gives it from the text alone for lists of well-formed rules."
  },
  {
   "property": "C22",
   "status": "proved",
   "theorems": [
    "AdBlock.C22_every_line",
    "AdBlock.C22_domain_and_tag",
    "AdBlock.C22_rule_text"
   ],
   "note": "C22_rule_text covers the usual way of writing a rule and all unusual ones (Spec.RuleText.WellFormed); C22_every_line shows that every line that can be loaded is such a rule or holds no rule that could apply. Only rules for a host of 2044 bytes or more (Spec.Peculiar) are left out of it."
  },
  {
   "property": "C23",
   "status": "proved",
   "theorems": [
    "AdBlock.C23_exact",
    "AdBlock.C23_reference",
    "AdBlock.C23_defined",
    "AdBlock.C23_short_urls"
   ],
   "note": "C23_exact is the exact verdict for every history, including what the code's defects change (host rules for a host already taken, gate of the excluded-domain index). C23_reference is the plain reference semantics for lists on which these defects do not show (Spec.Regular); C24/C26/C30_counterexample show that this restriction is needed."
  },
  {
   "property": "C24",
   "status": "partial",
   "theorems": [
    "AdBlock.C24_find_exact",
    "AdBlock.C24_agree_partial",
    "AdBlock.C24_find_reports_more",
    "AdBlock.C24_counterexample"
   ],
   "note": "False in general (C24_counterexample). C24_find_exact is the exact answer of findMatchingFilters; agreement with matches proved under Spec.RegularDomains."
  },
  {
   "property": "C25",
   "status": "proved",
   "theorems": [
    "AdBlock.C25_text",
    "AdBlock.C25_exceptions_override"
   ],
   "note": ""
  },
  {
   "property": "C26",
   "status": "partial",
   "theorems": [
    "AdBlock.C26_monotone_partial",
    "AdBlock.C26_parse_partial",
    "AdBlock.C26_counterexample",
    "AdBlock.C26_text_partial"
   ],
   "note": "False in general (C26_counterexample: an added rule for excluded domains closes the index). Proved when the added rules do not exclude the context domain."
  },
  {
   "property": "C27",
   "status": "partial",
   "theorems": [
    "AdBlock.C27_important_ignored",
    "AdBlock.C27_important_ignored_by_client",
    "AdBlock.C27_never_honoured",
    "AdBlock.C27_counterexample"
   ],
   "note": "Violated: C27_counterexample. C27_important_ignored and C27_never_honoured prove that the option never has any effect."
  },
  {
   "property": "C28",
   "status": "proved",
   "theorems": [
    "AdBlock.C28_reports",
    "AdBlock.C28_find_reports"
   ],
   "note": ""
  },
  {
   "property": "C29",
   "status": "proved",
   "theorems": [
    "AdBlock.C29_queries_do_not_interfere",
    "AdBlock.C29_queries_keep_rules",
    "AdBlock.C29_detection_does_not_interfere"
   ],
   "note": "For any client state and any later sequence of operations; findMatchingFilters included."
  },
  {
   "property": "C30",
   "status": "partial",
   "theorems": [
    "AdBlock.C30_disabled_partial",
    "AdBlock.C30_never_reported",
    "AdBlock.C30_enabled",
    "AdBlock.C30_annotation",
    "AdBlock.C30_counterexample",
    "AdBlock.C30_text_enabled",
    "AdBlock.C30_text_disabled_partial"
   ],
   "note": "Enabled tags proved (C30_enabled, C30_annotation, C30_text_enabled); disabled rules are never reported and never act. A disabled host rule still hides later rules for its host (C30_counterexample); absence of influence is proved for all rules except host rules and rules only about excluded domains (C30_disabled_partial, C30_text_disabled_partial)."
  },
  {
   "property": "C31",
   "status": "proved",
   "theorems": [
    "AdBlock.C31_tags",
    "AdBlock.C31_text"
   ],
   "note": ""
  },
  {
   "property": "C32",
   "status": "proved",
   "theorems": [
    "AdBlock.C32_empty_blocks_nothing",
    "AdBlock.C32_until_loading"
   ],
   "note": "Any client state before clear; also for whole histories without loading a list."
  },
  {
   "property": "C33",
   "status": "proved",
   "theorems": [
    "AdBlock.C33_clear_forgets"
   ],
   "note": "Equality of all answers and of the whole state (statistics included) except the pointer to the deserialized buffer."
  },
  {
   "property": "C34",
   "status": "proved",
   "theorems": [
    "AdBlock.C34_in_list",
    "AdBlock.C34_host_rule_blocks",
    "AdBlock.C34_limits"
   ],
   "note": "C34_limits shows why the statement excludes main documents and bare top level domains."
  },
  {
   "property": "C35",
   "status": "partial",
   "theorems": [
    "AdBlock.C35_exact",
    "AdBlock.C35_parsed_rules",
    "AdBlock.C35_round_trip_partial",
    "AdBlock.C35_empty_text_counterexample",
    "AdBlock.C35_tag_counterexample",
    "AdBlock.C35_empty_domains_counterexample"
   ],
   "note": "Rules with an empty text, an empty domain list, or (without tag) a domain list starting with '~#' are excluded; three counterexamples show that they do not survive. C35_exact describes what is read back for every rule a parser leaves, and shows that exactly the storable ones survive."
  },
  {
   "property": "C36",
   "status": "partial",
   "theorems": [
    "AdBlock.C36_exact",
    "AdBlock.C36_rule_partial",
    "AdBlock.C36_domain"
   ],
   "note": "Domain entries: full. Host rules: an empty domain list, or (without tag) one starting with '~#', is excluded as in C35. C36_exact describes what is read back in these cases, too."
  },
  {
   "property": "C37",
   "status": "partial",
   "theorems": [
    "AdBlock.C37_exact",
    "AdBlock.C37_verdict_counterexample",
    "AdBlock.C37_no_domain_counterexample",
    "AdBlock.C37_no_text_counterexample",
    "AdBlock.C37_round_trip_partial"
   ],
   "note": "Restrictions of C35, and sizes below 2 GB (the code computes them in int). C37_exact has only the restriction about sizes, and says which rules the reloaded client goes by. All three kinds of rules that C35 excludes change answers: C37_verdict_counterexample, C37_no_domain_counterexample and C37_no_text_counterexample."
  },
  {
   "property": "C38",
   "status": "proved",
   "theorems": [
    "AdBlock.C38_size",
    "AdBlock.C38_rules",
    "AdBlock.C38_entry",
    "AdBlock.C38_domain"
   ],
   "note": ""
  },
  {
   "property": "C39",
   "status": "partial",
   "theorems": [
    "AdBlock.C39_rule_partial",
    "AdBlock.C39_no_header",
    "AdBlock.C39_domain_partial",
    "AdBlock.C39_overflow_counterexample",
    "AdBlock.C39_domain_counterexample"
   ],
   "note": "Proved unless the sum of the lengths exceeds 32 bits; counterexamples for that and for domain entries without a terminated header."
  },
  {
   "property": "C40",
   "status": "partial",
   "theorems": [
    "AdBlock.C40_partial",
    "AdBlock.C40_counterexample",
    "AdBlock.C40_all_readable_partial"
   ],
   "note": "Proved for all histories in which no parse follows a deserialize without a clear in between; C40_counterexample shows that in all the others (with a rule that has a string) destruction frees pointers into the buffer. Separate ownership model: pointers and blocks only; what depends on contents is quantified over."
  },
  {
   "property": "C41",
   "status": "proved",
   "theorems": [
    "AdBlock.C41_names",
    "AdBlock.C41_bits_distinct",
    "AdBlock.C41_option_list",
    "AdBlock.C41_documented_options",
    "AdBlock.C41_unknown",
    "AdBlock.C41_meaning",
    "AdBlock.C41_prefixes_accepted"
   ],
   "note": "Includes that prefixes of names are accepted, as the code does."
  },
  {
   "property": "C42",
   "status": "partial",
   "theorems": [
    "AdBlock.C42_over_long_line",
    "AdBlock.C42_null_dereference"
   ],
   "note": "The rule never matches (C42_over_long_line); but in C42_null_dereference the parser itself dereferences a null pointer for every over-long rule with host anchor and path, so 'ignored' fails for those."
  },
  {
   "property": "C43",
   "status": "partial",
   "theorems": [
    "AdBlock.C43_preserved_text",
    "AdBlock.C43_regex"
   ],
   "note": "As stated for network and HTML rules; C43_preserved_text also proves that for every element hiding rule the last two characters are missing. C43_regex says exactly what is stored for regular expressions."
  },
  {
   "property": "C44",
   "status": "proved",
   "theorems": [
    "AdBlock.C44_page_rules",
    "AdBlock.C44_page_rules_find",
    "AdBlock.C44_text"
   ],
   "note": ""
  },
  {
   "property": "C45",
   "status": "proved",
   "theorems": [
    "AdBlock.C45_miss_is_right",
    "AdBlock.C45_index_transparent"
   ],
   "note": "Equality of the whole outcome (verdict, filters, statistics) with that of a client that lacks the index."
  },
  {
   "property": "C46",
   "status": "proved",
   "theorems": [
    "AdBlock.C46_index_invisible",
    "AdBlock.C46_bad_fingerprints_invisible",
    "AdBlock.C46_find",
    "AdBlock.C46_same_rules"
   ],
   "note": ""
  },
  {
   "property": "C47",
   "status": "partial",
   "theorems": [
    "AdBlock.C47_exact",
    "AdBlock.C47_exact_unterminated",
    "AdBlock.C47_exact_unterminated_right",
    "AdBlock.C47_rule_text",
    "AdBlock.C47_in_bounds_for_url_partial",
    "AdBlock.C47_in_bounds_partial",
    "AdBlock.C47_in_bounds_unterminated_partial",
    "AdBlock.C47_counterexample",
    "AdBlock.C47_hash_set_counterexample"
   ],
   "note": "False in general (C47_counterexample, C47_hash_set_counterexample). C47_exact, C47_exact_unterminated and C47_exact_unterminated_right say for every rule and URL exactly when a comparison (without the prefilter, which by C15 only leaves comparisons out) reads out of bounds, and that it gives an answer otherwise; C47_rule_text says it from the text of the rule and the request (ReadsPast in SpecRequest.lean). The _partial theorems give conditions that are easier to check."
  },
  {
   "property": "C48",
   "status": "proved",
   "theorems": [
    "AdBlock.C48_lines",
    "AdBlock.C48_rewriting",
    "AdBlock.C48_extra_rules_once",
    "AdBlock.C48_twice",
    "AdBlock.C48_verdicts",
    "AdBlock.C48_list_url",
    "AdBlock.C48_list_urls",
    "AdBlock.C48_array_of_lists"
   ],
   "note": ""
  },
  {
   "property": "C49",
   "status": "partial",
   "theorems": [
    "AdBlock.C49_exact",
    "AdBlock.C49_partial",
    "AdBlock.C49_counterexample"
   ],
   "note": "Violated: the announced size is that of the last bucket of the table, so other selectors are written outside the buffer (C49_counterexample). C49_exact says when the call is defined and what it returns; C49_partial covers selectors that all fall into the last bucket."
  },
  {
   "property": "C50",
   "status": "partial",
   "theorems": [
    "AdBlock.C50_exact",
    "AdBlock.C50_counterexample",
    "AdBlock.C50_stable_partial"
   ],
   "note": "Restrictions of C37. C50_exact has only the restriction about sizes; C50_counterexample: other bytes for the option domain=~#x."
  },
  {
   "property": "C51",
   "status": "proved",
   "theorems": [
    "AdBlock.C51_repeated_rules",
    "AdBlock.C51_repeated_rules_find",
    "AdBlock.C51_loading_twice",
    "AdBlock.C51_text"
   ],
   "note": ""
  },
  {
   "property": "C52",
   "status": "partial",
   "theorems": [
    "AdBlock.C52_order_partial",
    "AdBlock.C52_order_find_partial",
    "AdBlock.C52_lines_partial",
    "AdBlock.C52_counterexample",
    "AdBlock.C52_text_partial"
   ],
   "note": "False if two different host rules of the same kind are for the same host (C52_counterexample): only the first is kept. Proved for all lists without such a pair."
  },
  {
   "property": "C53",
   "status": "partial",
   "theorems": [
    "AdBlock.C53_behavioural_options",
    "AdBlock.C53_rule",
    "AdBlock.C53_text",
    "AdBlock.C53_collapse_and_donottrack",
    "AdBlock.C53_counterexample"
   ],
   "note": "Proved for redirect, important and explicitcancel. False for collapse and donottrack, which are taken for resource types: C53_collapse_and_donottrack, C53_counterexample."
  },
  {
   "property": "C54",
   "status": "proved",
   "theorems": [
    "AdBlock.C54_collects",
    "AdBlock.C54_query",
    "AdBlock.C54_origin",
    "AdBlock.C54_kept",
    "AdBlock.C54_matches",
    "AdBlock.C54_others"
   ],
   "note": ""
  },
  {
   "property": "C55",
   "status": "proved",
   "theorems": [
    "AdBlock.C55_told",
    "AdBlock.C55_query",
    "AdBlock.C55_matches",
    "AdBlock.C55_blocked_requests",
    "AdBlock.C55_monotone"
   ],
   "note": ""
  },
  {
   "property": "C56",
   "status": "partial",
   "theorems": [
    "AdBlock.C56_partial",
    "AdBlock.C56_counterexample"
   ],
   "note": "Proved for the histories of C40_partial and lists in which no line repeats domain= or tag=; C56_counterexample shows the leak."
  },
  {
   "property": "C57",
   "status": "partial",
   "theorems": [
    "AdBlock.C57_getFilters_is_invisible",
    "AdBlock.C57_getFilters_reports_partial",
    "AdBlock.C57_one_name_partial",
    "AdBlock.C57_determined_partial",
    "AdBlock.C57_counterexample_host_rules",
    "AdBlock.C57_counterexample_twice"
   ],
   "note": "C57_getFilters_is_invisible covers all calls. The reports are proved for all names and rules; C57_one_name_partial excludes plain host rules, which C57_counterexample_host_rules shows to be under no name, and C57_determined_partial excludes empty texts and hosts, for which C57_counterexample_twice shows that asking twice can give different answers."
  },
  {
   "property": "C58",
   "status": "partial",
   "theorems": [
    "AdBlock.C58_listed_hosts_are_blocked",
    "AdBlock.C58_queries_are_safe_partial",
    "AdBlock.C58_nothing_else_is_blocked",
    "AdBlock.C58_counterexample"
   ],
   "note": "What is blocked is proved for all lists. C58_queries_are_safe_partial needs that the list does not end with a line feed; C58_counterexample shows a read out of bounds otherwise."
  },
  {
   "property": "C59",
   "status": "partial",
   "theorems": [
    "AdBlock.C59_session_partial",
    "AdBlock.C59_text_to_verdict_partial",
    "AdBlock.C59_every_list",
    "AdBlock.C59_every_list_exact",
    "AdBlock.C59_safe_lists",
    "AdBlock.C59_session_exact",
    "AdBlock.C59_text_exact"
   ],
   "note": "Proved for sequences of calls that load lists which can be parsed safely (SoundList in SpecRequest.lean) and ask about requests to which no defect recorded for another property applies (Clear in SpecRequest.lean lists these). The rules may have any options: every option is read, also abbreviations, collapse and donottrack, and those without effect. C59_session_exact and C59_text_exact drop the conditions about the indexes: for every list that can be parsed safely and every request with which its rules can be compared safely they say exactly which rules count (SpecExact.lean), in terms of the text; the remaining condition is that without a page no such rule has an empty entry domain=~. C59_every_list says that the lists considered (ListOf and SoundList) are exactly those that can be loaded and have no peculiar host rules (Spec.Peculiar: a host of 2044 bytes or more); C59_safe_lists gives a simple condition for that."
  },
  {
   "property": "C60",
   "status": "partial",
   "theorems": [
    "AdBlock.C60_complete",
    "AdBlock.C60_complete_partial",
    "AdBlock.C60_cut_off_counterexample",
    "AdBlock.C60_header_counterexample"
   ],
   "note": "Loading complete data is proved for all clients (C60_complete), queries afterwards with the restrictions of C35. Violated by every cut: C60_cut_off_counterexample shows for all clients, and for every proper prefix of what they write (below 2 GB), that deserialize reads behind the end. (For the sections of the hash sets and bloom filters this rests on the contracts assumed for those libraries.)"
  },
  {
   "property": "C61",
   "status": "partial",
   "theorems": [
    "AdBlock.C61_report_partial",
    "AdBlock.C61_host_rule_counterexample",
    "AdBlock.C61_defined_partial",
    "AdBlock.C61_reloaded_counterexample",
    "AdBlock.C61_host_rule_found_counterexample",
    "AdBlock.C61_reloaded_found_counterexample",
    "AdBlock.C61_page_undefined_counterexample",
    "AdBlock.C61_no_page_counterexample",
    "AdBlock.C61_text_partial",
    "AdBlock.C61_text_exact"
   ],
   "note": "Proved for new clients and every rule that does not consist of a host only. Violated: C61_host_rule_counterexample (a host rule that is found is always read beyond its end), C61_reloaded_counterexample (after a reload the host is appended to the text of such a rule), C61_no_page_counterexample (a page left out is the page 'undefined'). C61_text_partial derives the whole answer from the text of the rules, with the restrictions of C59. C61_text_exact: the same for every web request with a page that can be compared with the rules, by the rules that count, and exactly when a host rule is read beyond its end (FindsHost)."
  },
  {
   "property": "C62",
   "status": "partial",
   "theorems": [
    "AdBlock.C62_reloading_is_invisible_partial",
    "AdBlock.C62_counterexample",
    "AdBlock.C62_exact"
   ],
   "note": "C62_reloading_is_invisible_partial has the restrictions of C35; both theorems are about data smaller than 2 GB. C62_exact is about all lists, and says which rules decide after each reload; C62_counterexample shows that rules which C35 excludes change answers. Which blocks of memory are freed when lists are loaded on top of a deserialized client is not part of this claim but of C40, which is violated then."
  },
  {
   "property": "C63",
   "status": "partial",
   "theorems": [
    "AdBlock.C63_text_partial",
    "AdBlock.C63_text_exact",
    "AdBlock.C63_counterexample",
    "AdBlock.C63_exact",
    "AdBlock.C63_sites_do_not_matter",
    "AdBlock.C63_file_is_written",
    "AdBlock.C63_data_file_partial",
    "AdBlock.C63_region_partial",
    "AdBlock.C63_lists_partial",
    "AdBlock.C63_sample_partial",
    "AdBlock.C63_malware_counterexample"
   ],
   "note": "Restrictions of C35, and data smaller than 2 GB; C63_text_partial has those of C66; C63_text_exact is about all lists that can be loaded and saved, and says which rules count. C63_exact is about all texts, and says which rules a client made from the file goes by. For a list with the UUID of the malware hosts see C58: C63_malware_counterexample (the table of malware lists is empty at this commit). The client left behind by a deserialize that returned false (makeAdBlockClientFromDATFile does not look at the result) is the subject of C80_dat_file_agrees and C80_dat_file_counterexample. C63_counterexample: a rule which C35 excludes."
  },
  {
   "property": "C64",
   "status": "partial",
   "theorems": [
    "AdBlock.C64_counts",
    "AdBlock.C64_discover_counterexample"
   ],
   "note": "Proved without --discover. Violated with it: C64_discover_counterexample shows that every site is counted as matching, for all clients and lists of sites."
  },
  {
   "property": "C65",
   "status": "partial",
   "theorems": [
    "AdBlock.C65_header_partial",
    "AdBlock.C65_regenerated_partial",
    "AdBlock.C65_quote_counterexample",
    "AdBlock.C65_backslash_counterexample",
    "AdBlock.C65_not_enabled_counterexample"
   ],
   "note": "Proved for addresses and built-in fingerprints without quotes, backslashes and line feeds. Violated otherwise: C65_quote_counterexample, C65_backslash_counterexample; C65_not_enabled_counterexample: a null pointer is dereferenced if detection is not enabled."
  },
  {
   "property": "C66",
   "status": "partial",
   "theorems": [
    "AdBlock.C66_saved_session_partial",
    "AdBlock.C66_saved_session_exact"
   ],
   "note": "Restrictions of C59 (lists that can be parsed safely, requests to which no defect recorded for another property applies) and of C35 (rules the data format cannot represent); lists of up to 20 MB in a client when it is saved (the size of the data follows by C67). C66_saved_session_exact needs only that requests can be compared with the rules, and says which rules decide."
  },
  {
   "property": "C67",
   "status": "proved",
   "theorems": [
    "AdBlock.C67_size",
    "AdBlock.C67_fits"
   ],
   "note": "The size of a bloom filter is taken from its library: adding to it does not change its size (contract FixedBlooms, part of the trusted base)."
  },
  {
   "property": "C68",
   "status": "partial",
   "theorems": [
    "AdBlock.C68_known",
    "AdBlock.C68_found_iff",
    "AdBlock.C68_unknown",
    "AdBlock.C68_verdicts",
    "AdBlock.C68_malware_counterexample",
    "AdBlock.C68_names_distinct",
    "AdBlock.C68_run",
    "AdBlock.C68_header_partial",
    "AdBlock.C68_header_counterexample",
    "AdBlock.C68_empty_file_counterexample"
   ],
   "note": "The code violates the property for the header with bad fingerprints (C68_header_counterexample), for the UUID of the malware hosts (C68_malware_counterexample) and for the file made of the empty table (C68_empty_file_counterexample). C68_header_partial says what the header has."
  },
  {
   "property": "C69",
   "status": "proved",
   "theorems": [
    "AdBlock.C69_manifest",
    "AdBlock.C69_all_manifests"
   ],
   "note": ""
  },
  {
   "property": "C70",
   "status": "partial",
   "theorems": [
    "AdBlock.C70_types",
    "AdBlock.C70_names",
    "AdBlock.C70_verdict_partial",
    "AdBlock.C70_verdict_exact",
    "AdBlock.C70_command_line_partial",
    "AdBlock.C70_unknown_name_counterexample",
    "AdBlock.C70_rule_names_counterexample",
    "AdBlock.C70_tool_counterexample"
   ],
   "note": "The code violates the property for names given to -O which are not in FilterOptions (C70_unknown_name_counterexample, C70_rule_names_counterexample, C70_tool_counterexample). C70_verdict_partial has the restrictions of C59 on the rules; C70_verdict_exact is about all lists that can be loaded, and says which rules count."
  },
  {
   "property": "C71",
   "status": "partial",
   "theorems": [
    "AdBlock.C71_numbers",
    "AdBlock.C71_total_partial",
    "AdBlock.C71_html_counterexample",
    "AdBlock.C71_reloaded"
   ],
   "note": "The code violates the property for HTML rules, which are not reported (C71_html_counterexample); C71_total_partial has their number as a separate term. C71_reloaded is for data below 2 GB."
  },
  {
   "property": "C72",
   "status": "partial",
   "theorems": [
    "AdBlock.C72_refused",
    "AdBlock.C72_source",
    "AdBlock.C72_no_source",
    "AdBlock.C72_verdict_partial",
    "AdBlock.C72_file",
    "AdBlock.C72_list_partial",
    "AdBlock.C72_saved_partial",
    "AdBlock.C72_discover_partial",
    "AdBlock.C72_stats",
    "AdBlock.C72_stats_output_counterexample",
    "AdBlock.C72_discover_counterexample",
    "AdBlock.C72_verdict_exact",
    "AdBlock.C72_list_exact",
    "AdBlock.C72_saved_exact",
    "AdBlock.C72_discover_exact",
    "AdBlock.C72_discover_host_counterexample",
    "AdBlock.C72_into_agrees",
    "AdBlock.C72_refused_no_error",
    "AdBlock.C72_damaged_counterexample"
   ],
   "note": "The code violates the property for --stats with --output (C72_stats_output_counterexample), for a file of addresses with --discover (C72_discover_counterexample) and for --discover where it comes upon a rule that consists of a host (C72_discover_host_counterexample). C72_verdict_exact, C72_list_exact, C72_saved_exact and C72_discover_exact say what it answers for all lists that can be loaded, with the rules that count (C59_text_exact, C61_text_exact); C72_verdict_partial, C72_list_partial, C72_saved_partial and C72_discover_partial say the same in plain words with the restrictions of C59, C61 and C66. A data file that deserialize rejects is not reported (C72_refused_no_error), and the answers are those of the client left behind (C72_damaged_counterexample); all other theorems hold for that model of the tool too (C72_into_agrees)."
  },
  {
   "property": "C73",
   "status": "partial",
   "theorems": [
    "AdBlock.C73_words",
    "AdBlock.C73_no_file",
    "AdBlock.C73_sample_partial",
    "AdBlock.C73_perf_partial",
    "AdBlock.C73_broken_list_counterexample",
    "AdBlock.C73_sample_exact",
    "AdBlock.C73_perf_exact",
    "AdBlock.C73_second_list_counterexample"
   ],
   "note": "The code violates the property for lists that cannot be parsed safely (C73_broken_list_counterexample), and for a host with rules in two lists (C73_second_list_counterexample). C73_sample_partial and C73_perf_partial have the restrictions of C59 and C66 on the lists; C73_sample_exact and C73_perf_exact are about all lists that can be loaded and saved, and say which rules count; what the benchmark says of its header also has the restrictions of C65. Times and statistics are not covered, nor a benchmark whose own data are rejected by deserialize."
  },
  {
   "property": "C74",
   "status": "partial",
   "theorems": [
    "AdBlock.C74_argument",
    "AdBlock.C74_round_trip",
    "AdBlock.C74_parts",
    "AdBlock.C74_lines",
    "AdBlock.C74_patterns",
    "AdBlock.C74_verdict_partial",
    "AdBlock.C74_session_partial",
    "AdBlock.C74_told_partial",
    "AdBlock.C74_plain_rule",
    "AdBlock.C74_nul_counterexample",
    "AdBlock.C74_nul_found_counterexample",
    "AdBlock.C74_undefined_counterexample",
    "AdBlock.C74_no_text_counterexample",
    "AdBlock.C74_fingerprint_counterexample",
    "AdBlock.C74_preprocessing",
    "AdBlock.C74_exact"
   ],
   "note": "The code violates the property for strings with NUL (C74_nul_counterexample, C74_nul_found_counterexample), for what is not a string (C74_undefined_counterexample, C74_no_text_counterexample) and for getFingerprint (C74_fingerprint_counterexample). C74_exact says for all lists that can be loaded what matches and findMatchingFilters answer, and when the latter reads beyond the text of a rule. C74_verdict_partial has the restrictions of C59, C74_told_partial also those of C61; options are read in UTF-8. Strings with lone surrogates are not covered."
  },
  {
   "property": "C75",
   "status": "partial",
   "theorems": [
    "AdBlock.C75_program_partial",
    "AdBlock.C75_find_counterexample",
    "AdBlock.C75_not_a_buffer",
    "AdBlock.C75_cleanup_counterexample"
   ],
   "note": "The code violates the property for objects that have been cleaned up (C75_cleanup_counterexample), for lists loaded after data (C40) and for findMatchingFilters where it comes upon a rule that consists of a host (C75_find_counterexample: after every program of this kind). C75_program_partial covers all other programs, for lists and requests as in C59_text_exact and C66_saved_session_exact; the memory of the buffers is the subject of C40 and C56; a client whose deserialize has failed is not followed further. C75_not_a_buffer says what deserialize does with other values."
  },
  {
   "property": "C76",
   "status": "proved",
   "theorems": [
    "AdBlock.C76_components",
    "AdBlock.C76_distinct"
   ],
   "note": ""
  },
  {
   "property": "C77",
   "status": "proved",
   "theorems": [
    "AdBlock.C77_objects",
    "AdBlock.C77_groups",
    "AdBlock.C77_found",
    "AdBlock.C77_own_list",
    "AdBlock.C77_not_found",
    "AdBlock.C77_default",
    "AdBlock.C77_languages",
    "AdBlock.C77_for_everyone"
   ],
   "note": ""
  },
  {
   "property": "C78",
   "status": "partial",
   "theorems": [
    "AdBlock.C78_production",
    "AdBlock.C78_interrupted",
    "AdBlock.C78_single",
    "AdBlock.C78_single_as_whole",
    "AdBlock.C78_test_only",
    "AdBlock.C78_production_only",
    "AdBlock.C78_exit_code",
    "AdBlock.C78_no_directory",
    "AdBlock.C78_test_partial",
    "AdBlock.C78_test_counterexample",
    "AdBlock.C78_backups_kept",
    "AdBlock.C78_history",
    "AdBlock.C78_same_second_counterexample",
    "AdBlock.C78_version",
    "AdBlock.C78_lists"
   ],
   "note": "The code violates the full statement for a named file in a test and for two runs within one second (C78_test_counterexample, C78_same_second_counterexample); C78_test_partial covers the files in out. Everything else is proved."
  },
  {
   "property": "C79",
   "status": "proved",
   "theorems": [
    "AdBlock.C79_silent_lines",
    "AdBlock.C79_added_line",
    "AdBlock.C79_html_rules_leave_traces"
   ],
   "note": ""
  },
  {
   "property": "C80",
   "status": "partial",
   "theorems": [
    "AdBlock.C80_agrees",
    "AdBlock.C80_nothing_old",
    "AdBlock.C80_tags",
    "AdBlock.C80_recovers",
    "AdBlock.C80_blocks_nothing_partial",
    "AdBlock.C80_undamaged",
    "AdBlock.C80_matches_counterexample",
    "AdBlock.C80_find_counterexample",
    "AdBlock.C80_dat_file_agrees",
    "AdBlock.C80_dat_file_unreadable",
    "AdBlock.C80_dat_file_counterexample"
   ],
   "note": "The code violates the full statement: C80_matches_counterexample and C80_find_counterexample show, for all clients, that rules of refused data are in force. C80_blocks_nothing_partial covers matches when the set of exceptions for hosts was not reached. That nothing of the earlier rules is left and that clear or other data make the client as new is proved in full (C80_nothing_old, C80_recovers). C80_dat_file_counterexample: the same for clients made from damaged data files."
  },
  {
   "property": "C81",
   "status": "proved",
   "theorems": [
    "AdBlock.C81_order_of_options"
   ],
   "note": ""
  },
  {
   "property": "C82",
   "status": "partial",
   "theorems": [
    "AdBlock.C82_redundant_stars_partial",
    "AdBlock.C82_literal_star_counterexample",
    "AdBlock.C82_double_star_counterexample"
   ],
   "note": "The code violates the full statement: C82_literal_star_counterexample (rules with bars, for all such lists) and C82_double_star_counterexample (banner**). C82_redundant_stars_partial covers all other rules: text without bars, or behind the host of a || rule, with any number of stars at the beginning, between, and one at the end."
  },
  {
   "property": "C83",
   "status": "partial",
   "theorems": [
    "AdBlock.C83_split_partial",
    "AdBlock.C83_host_counterexample"
   ],
   "note": "False for rules that consist of a host (C83_host_counterexample, see C52). C83_split_partial covers all others, in all lists."
  },
  {
   "property": "C84",
   "status": "partial",
   "theorems": [
    "AdBlock.C84_rule_does_not_apply_partial",
    "AdBlock.C84_host_counterexample",
    "AdBlock.C84_excluding_counterexample"
   ],
   "note": "False for rules that consist of a host (C84_host_counterexample, see C52) and for rules without a fingerprint which only exclude domains (C84_excluding_counterexample). C84_rule_does_not_apply_partial covers all other rules, and these too unless they are in the way of another (Meddles in SpecRuleLaws.lean)."
  },
  {
   "property": "C85",
   "status": "partial",
   "theorems": [
    "AdBlock.C85_covered_partial",
    "AdBlock.C85_exceptions_undo_partial",
    "AdBlock.C85_host_counterexample",
    "AdBlock.C85_excluding_counterexample"
   ],
   "note": "False if there are further exceptions (C85_host_counterexample, C85_excluding_counterexample). C85_exceptions_undo_partial: the exceptions are the blocking rules in the same order. C85_covered_partial: each blocking rule is covered by an exception to which the defects do not apply."
  },
  {
   "property": "C86",
   "status": "partial",
   "theorems": [
    "AdBlock.C86_page_partial",
    "AdBlock.C86_type",
    "AdBlock.C86_unknown_counterexample"
   ],
   "note": "False for requests of unknown type (C86_unknown_counterexample). C86_page_partial: the type is known, or no rule excludes types. The part about types is proved in full (C86_type)."
  },
  {
   "property": "C87",
   "status": "partial",
   "theorems": [
    "AdBlock.C87_covered_partial",
    "AdBlock.C87_host_counterexample"
   ],
   "note": "False if the covering rule is not in force because of the defects of C52 and C84 (C87_host_counterexample). C87_covered_partial covers all rules to which these do not apply (Reliable and Meddles in SpecRuleLaws.lean)."
  },
  {
   "property": "C88",
   "status": "partial",
   "theorems": [
    "AdBlock.C88_lower_partial",
    "AdBlock.C88_host_counterexample",
    "AdBlock.C88_path_counterexample"
   ],
   "note": "The full statement is false: C88_host_counterexample, C88_path_counterexample (also for match-case). C88_lower_partial is the part that holds: comparing as written blocks no more than comparing in lower case does."
  },
  {
   "property": "C89",
   "status": "partial",
   "theorems": [
    "AdBlock.C89_party_partial",
    "AdBlock.C89_type_partial",
    "AdBlock.C89_host_counterexample",
    "AdBlock.C89_unknown_counterexample"
   ],
   "note": "False for rules that consist of a host (C89_host_counterexample, see C52), and for types if neither type nor page of the request is known (C89_unknown_counterexample). C89_party_partial and C89_type_partial cover everything else."
  },
  {
   "property": "C90",
   "status": "partial",
   "theorems": [
    "AdBlock.C90_other_host_partial",
    "AdBlock.C90_subdomain_partial",
    "AdBlock.C90_user_counterexample",
    "AdBlock.C90_password_counterexample",
    "AdBlock.C90_blob_counterexample"
   ],
   "note": "The full statement is false: C90_user_counterexample, C90_password_counterexample, C90_blob_counterexample. C90_other_host_partial and C90_subdomain_partial are what holds for user names without passwords."
  },
  {
   "property": "C91",
   "status": "partial",
   "theorems": [
    "AdBlock.C91_no_more_partial",
    "AdBlock.C91_exact_partial",
    "AdBlock.C91_no_less_partial",
    "AdBlock.C91_separator_counterexample",
    "AdBlock.C91_anchored_counterexample",
    "AdBlock.C91_tight_counterexample",
    "AdBlock.C91_prefix_counterexample",
    "AdBlock.C91_elsewhere_counterexample"
   ],
   "note": "The full statement is false: C91_separator_counterexample, C91_anchored_counterexample, C91_tight_counterexample, C91_prefix_counterexample, C91_elsewhere_counterexample. C91_exact_partial: exact for simple and regular rules, and for those with two bars, a host that does not occur again in the address, and a regular text (SpecDocumented.lean). C91_no_more_partial: nothing is blocked which no rule is meant for, except by rules with two bars, a host that occurs again in the address, and more. C91_no_less_partial: what these are meant for is blocked."
  },
  {
   "property": "C92",
   "status": "partial",
   "theorems": [
    "AdBlock.C92_exception_partial",
    "AdBlock.C92_longer_partial",
    "AdBlock.C92_separator_counterexample"
   ],
   "note": "The full statement is false: C92_separator_counterexample. C92_longer_partial: for additions that begin with a separator the library knows, and for rules without ^. C92_exception_partial: the same for exceptions."
  },
  {
   "property": "C93",
   "status": "proved",
   "theorems": [
    "AdBlock.C93_scheme"
   ],
   "note": ""
  },
  {
   "property": "C94",
   "status": "partial",
   "theorems": [
    "AdBlock.C94_subdomain_partial",
    "AdBlock.C94_exception_partial",
    "AdBlock.C94_dot_counterexample"
   ],
   "note": "The full statement is false: C94_dot_counterexample. C94_subdomain_partial: for rules for hosts with a dot. C94_exception_partial: the same for exceptions."
  },
  {
   "property": "C95",
   "status": "partial",
   "theorems": [
    "AdBlock.C95_subdomain_page_partial",
    "AdBlock.C95_party_counterexample",
    "AdBlock.C95_dot_counterexample"
   ],
   "note": "The full statement is false: C95_party_counterexample, C95_dot_counterexample. C95_subdomain_page_partial: for domains with a dot, if the party does not matter."
  },
  {
   "property": "C96",
   "status": "partial",
   "theorems": [
    "AdBlock.C96_both_partial",
    "AdBlock.C96_neither_partial",
    "AdBlock.C96_either_partial",
    "AdBlock.C96_several_partial",
    "AdBlock.C96_neither_counterexample",
    "AdBlock.C96_both_counterexample"
   ],
   "note": "The full statement is false: C96_neither_counterexample, C96_both_counterexample. C96_both_partial, C96_neither_partial, C96_either_partial (two lists) and C96_several_partial (any number): for requests for which the rules are Independent of each other."
  },
  {
   "property": "C97",
   "status": "partial",
   "theorems": [
    "AdBlock.C97_one_by_one_partial",
    "AdBlock.C97_host_counterexample",
    "AdBlock.C97_excluding_counterexample"
   ],
   "note": "The full statement is false: C97_host_counterexample, C97_excluding_counterexample. C97_one_by_one_partial: for requests for which the rules are Independent of each other."
  },
  {
   "property": "C98",
   "status": "partial",
   "theorems": [
    "AdBlock.C98_separator",
    "AdBlock.C98_star_partial",
    "AdBlock.C98_dot_counterexample",
    "AdBlock.C98_first_counterexample",
    "AdBlock.C98_host_counterexample"
   ],
   "note": "The full statement is false: C98_dot_counterexample, C98_first_counterexample, C98_host_counterexample. C98_separator: `||h` and `||h^` in every list. C98_star_partial: `||h^*`, for hosts with a dot of which no other rule of the kind consists."
  },
  {
   "property": "C99",
   "status": "proved",
   "theorems": [
    "AdBlock.C99_host_only"
   ],
   "note": ""
  },
  {
   "property": "C100",
   "status": "partial",
   "theorems": [
    "AdBlock.C100_exception_partial",
    "AdBlock.C100_dot_counterexample",
    "AdBlock.C100_first_counterexample"
   ],
   "note": "The full statement is false: C100_first_counterexample, C100_dot_counterexample. C100_exception_partial: the first exception that consists of the host, for hosts with a dot or requests to the host itself."
  },
  {
   "property": "C101",
   "status": "proved",
   "theorems": [
    "AdBlock.C101_more_tags",
    "AdBlock.C101_fewer_tags",
    "AdBlock.C101_other_tags"
   ],
   "note": ""
  },
  {
   "property": "C102",
   "status": "partial",
   "theorems": [
    "AdBlock.C102_type_partial",
    "AdBlock.C102_page_partial",
    "AdBlock.C102_type_counterexample",
    "AdBlock.C102_page_counterexample"
   ],
   "note": "The full statement is false: C102_type_counterexample, C102_page_counterexample. C102_type_partial: lists without excluded types, collapse and donottrack. C102_page_partial: lists in which the rules with domains consist of a host or have a fingerprint."
  },
  {
   "property": "C103",
   "status": "proved",
   "theorems": [
    "AdBlock.C103_apart",
    "AdBlock.C103_interleaving"
   ],
   "note": ""
  },
  {
   "property": "C104",
   "status": "proved",
   "theorems": [
    "AdBlock.C104_left_alone",
    "AdBlock.C104_no_exceptions"
   ],
   "note": ""
  },
  {
   "property": "C105",
   "status": "proved",
   "theorems": [
    "AdBlock.C105_more_rules",
    "AdBlock.C105_more_exceptions",
    "AdBlock.C105_order",
    "AdBlock.C105_same_answer"
   ],
   "note": ""
  },
  {
   "property": "C106",
   "status": "proved",
   "theorems": [
    "AdBlock.C106_numbers",
    "AdBlock.C106_order",
    "AdBlock.C106_total"
   ],
   "note": ""
  },
  {
   "property": "C107",
   "status": "proved",
   "theorems": [
    "AdBlock.C107_reports",
    "AdBlock.C107_one_name"
   ],
   "note": ""
  },
  {
   "property": "C108",
   "status": "partial",
   "theorems": [
    "AdBlock.C108_exactly",
    "AdBlock.C108_reports_partial",
    "AdBlock.C108_two_domains",
    "AdBlock.C108_exceptions"
   ],
   "note": "The code violates the full statement: C108_two_domains, C108_exceptions. C108_exactly says what is reported for every line; C108_reports_partial is the property for lines with at most one domain that are not exceptions written #@#."
  },
  {
   "property": "C109",
   "status": "partial",
   "theorems": [
    "AdBlock.C109_exact",
    "AdBlock.C109_reports_partial",
    "AdBlock.C109_tag_counterexample",
    "AdBlock.C109_no_domain_counterexample"
   ],
   "note": "The code violates the full statement: C109_tag_counterexample, C109_no_domain_counterexample. C109_exact says what is reported for every rule; C109_reports_partial is the property for rules whose domain= list survives."
  },
  {
   "property": "C110",
   "status": "partial",
   "theorems": [
    "AdBlock.C110_found_partial",
    "AdBlock.C110_answers_partial",
    "AdBlock.C110_statistics",
    "AdBlock.C110_lists_partial",
    "AdBlock.C110_counterexample",
    "AdBlock.C110_reports_partial",
    "AdBlock.C110_reports_counterexample"
   ],
   "note": "The full statement is false: C110_counterexample, C110_reports_counterexample. C110_answers_partial: for clients with any history and rules which the format represents; C110_lists_partial, C110_found_partial: for the text of two lists; C110_statistics: the numbers of rules, without restriction on the rules. C110_reports_partial: what getFilters reports, for rules whose domains survive being saved. As elsewhere, data of 2 GB and more are left out."
  },
  {
   "property": "C111",
   "status": "partial",
   "theorems": [
    "AdBlock.C111_redundant_domains_partial",
    "AdBlock.C111_dot_counterexample",
    "AdBlock.C111_page_counterexample"
   ],
   "note": "The full statement is false: C111_dot_counterexample, C111_page_counterexample. C111_redundant_domains_partial: for domains with a dot, if the page is known or every rule with a domain= option consists of a host or can be indexed by its text."
  },
  {
   "property": "C112",
   "status": "partial",
   "theorems": [
    "AdBlock.C112_same_types_partial",
    "AdBlock.C112_unknown_counterexample"
   ],
   "note": "The full statement is false: C112_unknown_counterexample. C112_same_types_partial: for requests of a known type, and for others if the rules list types, and exclude types, alike."
  },
  {
   "property": "C113",
   "status": "partial",
   "theorems": [
    "AdBlock.C113_aside",
    "AdBlock.C113_tags_enabled",
    "AdBlock.C113_tags_disabled_partial",
    "AdBlock.C113_again",
    "AdBlock.C113_tags_counterexample",
    "AdBlock.C113_star_partial",
    "AdBlock.C113_dot_counterexample",
    "AdBlock.C113_order",
    "AdBlock.C113_stars_partial",
    "AdBlock.C113_separator",
    "AdBlock.C113_domains_partial",
    "AdBlock.C113_types_partial",
    "AdBlock.C113_split_partial",
    "AdBlock.C113_halves_partial",
    "AdBlock.C113_rule_does_not_apply_partial",
    "AdBlock.C113_host_counterexample",
    "AdBlock.C113_unknown_counterexample"
   ],
   "note": "The full statement is false: C113_host_counterexample, C113_unknown_counterexample, C113_dot_counterexample, C113_tags_counterexample. Each of the other theorems is the one about matches it refers to, under the same conditions or fewer; C113_order, C113_separator, C113_aside, C113_tags_enabled and C113_again need none."
  },
  {
   "property": "C114",
   "status": "partial",
   "theorems": [
    "AdBlock.C114_page_partial",
    "AdBlock.C114_type",
    "AdBlock.C114_scheme",
    "AdBlock.C114_subdomain_page_partial",
    "AdBlock.C114_longer_partial",
    "AdBlock.C114_subdomain_partial",
    "AdBlock.C114_host_only",
    "AdBlock.C114_exception_partial",
    "AdBlock.C114_left_alone",
    "AdBlock.C114_unknown_counterexample",
    "AdBlock.C114_separator_counterexample",
    "AdBlock.C114_dot_counterexample",
    "AdBlock.C114_party_counterexample",
    "AdBlock.C114_first_counterexample",
    "AdBlock.C114_user_partial",
    "AdBlock.C114_user_counterexample"
   ],
   "note": "The code violates the full statement (C114_unknown_counterexample, C114_separator_counterexample, C114_dot_counterexample, C114_party_counterexample, C114_first_counterexample, C114_user_counterexample). Proved without further conditions for types, schemes, lists of hosts and lists meant for other requests; the rest under the conditions of C86, C90, C92, C94, C95 and C100."
  },
  {
   "property": "C115",
   "status": "partial",
   "theorems": [
    "AdBlock.C115_both",
    "AdBlock.C115_neither_partial",
    "AdBlock.C115_either_partial",
    "AdBlock.C115_all",
    "AdBlock.C115_several_partial",
    "AdBlock.C115_one_by_one_partial",
    "AdBlock.C115_apart",
    "AdBlock.C115_interleaving",
    "AdBlock.C115_more_tags",
    "AdBlock.C115_fewer_tags",
    "AdBlock.C115_other_tags",
    "AdBlock.C115_covered_partial",
    "AdBlock.C115_repeated",
    "AdBlock.C115_undone_partial",
    "AdBlock.C115_neither_counterexample",
    "AdBlock.C115_host_counterexample",
    "AdBlock.C115_covered_counterexample"
   ],
   "note": "The code violates the full statement (C115_neither_counterexample, C115_host_counterexample, C115_covered_counterexample). C115_both, C115_all, C115_apart, C115_repeated, C115_interleaving and the theorems about tags need no conditions; the others are proved unless different rules of a kind consist of the same host."
  },
  {
   "property": "C116",
   "status": "partial",
   "theorems": [
    "AdBlock.C116_type_partial",
    "AdBlock.C116_page",
    "AdBlock.C116_type_counterexample",
    "AdBlock.C116_page_counterexample"
   ],
   "note": "The code violates the full statement (C116_type_counterexample, C116_page_counterexample). C116_type_partial is for blocking rules which exclude no types; C116_page holds for every request of known type."
  },
  {
   "property": "C117",
   "status": "partial",
   "theorems": [
    "AdBlock.C117_no_more_partial",
    "AdBlock.C117_exact_partial",
    "AdBlock.C117_no_less_partial",
    "AdBlock.C117_lower_partial",
    "AdBlock.C117_separator_counterexample",
    "AdBlock.C117_anchored_counterexample",
    "AdBlock.C117_tight_counterexample",
    "AdBlock.C117_prefix_counterexample",
    "AdBlock.C117_elsewhere_counterexample",
    "AdBlock.C117_case_counterexample"
   ],
   "note": "The code violates the full statement (C117_separator_counterexample, C117_anchored_counterexample, C117_tight_counterexample, C117_prefix_counterexample, C117_elsewhere_counterexample, C117_case_counterexample). Proved for the rules and requests of C91 and C88, under fewer conditions."
  }
 ]
}