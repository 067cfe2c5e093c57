{
 "C02": [
  "proved",
  "Both answers characterised for every byte string."
 ],
 "C03": [
  "proved",
  "Holds for every string and any length argument; reads past the NUL would be the outcome ub."
 ],
 "C13": [
  "partial",
  "third-party and ~third-party proved. The equivalence of first-party with ~third-party is false in the code: C13_first_party_ignored proves that first-party never has any effect, C13_first_party_counterexample gives a witness."
 ],
 "C41": [
  "proved",
  "Includes that prefixes of names are accepted, as the code does."
 ],
 "C08": [
  "proved",
  "Exact characterisation (with the documented exceptions, shown to be real in C08_exceptions), and the plain statement for the patterns not touched by them."
 ],
 "C10": [
  "proved",
  "As stated (rules without right anchor); the exception is shown by C10_right_anchor_counterexample."
 ],
 "C47": [
  "partial",
  "False in general (C47_counterexample, C47_hash_set_counterexample). C47_exact, C47_exact_unterminated and C47_exact_unterminated_right say for every rule and URL exactly when a comparison (without the prefilter, which by C15 only leaves comparisons out) reads out of bounds, and that it gives an answer otherwise; C47_rule_text says it from the text of the rule and the request (ReadsPast in SpecRequest.lean). The _partial theorems give conditions that are easier to check."
 ],
 "C42": [
  "partial",
  "The rule never matches (C42_over_long_line); but in C42_null_dereference the parser itself dereferences a null pointer for every over-long rule with host anchor and path, so 'ignored' fails for those."
 ],
 "C43": [
  "partial",
  "As stated for network and HTML rules; C43_preserved_text also proves that for every element hiding rule the last two characters are missing. C43_regex says exactly what is stored for regular expressions."
 ],
 "C21": [
  "partial",
  "False in general: three universal counterexamples (bar inside a host, over-long host anchored line, long domain). Proved for lists of safe lines (Spec.SafeLine), for every prior state of the client. C21_exact gives the condition (Spec.Loadable, for each line) that is necessary and sufficient for every list and client; C21_list_exact gives it from the text alone for lists of well-formed rules."
 ],
 "C18": [
  "proved",
  "Per line and for whole lists (equality of the resulting client)."
 ],
 "C01": [
  "proved",
  "For every client state, reachable or not, both query functions."
 ],
 "C23": [
  "proved",
  "C23_exact is the exact verdict for every history, including what the code's defects change (host rules for a host already taken, gate of the excluded-domain index). C23_reference is the plain reference semantics for lists on which these defects do not show (Spec.Regular); C24/C26/C30_counterexample show that this restriction is needed."
 ],
 "C24": [
  "partial",
  "False in general (C24_counterexample). C24_find_exact is the exact answer of findMatchingFilters; agreement with matches proved under Spec.RegularDomains."
 ],
 "C26": [
  "partial",
  "False in general (C26_counterexample: an added rule for excluded domains closes the index). Proved when the added rules do not exclude the context domain."
 ],
 "C27": [
  "partial",
  "Violated: C27_counterexample. C27_important_ignored and C27_never_honoured prove that the option never has any effect."
 ],
 "C30": [
  "partial",
  "Enabled tags proved (C30_enabled, C30_annotation, C30_text_enabled); disabled rules are never reported and never act. A disabled host rule still hides later rules for its host (C30_counterexample); absence of influence is proved for all rules except host rules and rules only about excluded domains (C30_disabled_partial, C30_text_disabled_partial)."
 ],
 "C45": [
  "proved",
  "Equality of the whole outcome (verdict, filters, statistics) with that of a client that lacks the index."
 ],
 "C29": [
  "proved",
  "For any client state and any later sequence of operations; findMatchingFilters included."
 ],
 "C31": [
  "proved",
  ""
 ],
 "C32": [
  "proved",
  "Any client state before clear; also for whole histories without loading a list."
 ],
 "C33": [
  "proved",
  "Equality of all answers and of the whole state (statistics included) except the pointer to the deserialized buffer."
 ],
 "C34": [
  "proved",
  "C34_limits shows why the statement excludes main documents and bare top level domains."
 ],
 "C35": [
  "partial",
  "Rules with an empty text, an empty domain list, or (without tag) a domain list starting with '~#' are excluded; three counterexamples show that they do not survive. C35_exact describes what is read back for every rule a parser leaves, and shows that exactly the storable ones survive."
 ],
 "C36": [
  "partial",
  "Domain entries: full. Host rules: an empty domain list, or (without tag) one starting with '~#', is excluded as in C35. C36_exact describes what is read back in these cases, too."
 ],
 "C37": [
  "partial",
  "Restrictions of C35, and sizes below 2 GB (the code computes them in int). C37_exact has only the restriction about sizes, and says which rules the reloaded client goes by. All three kinds of rules that C35 excludes change answers: C37_verdict_counterexample, C37_no_domain_counterexample and C37_no_text_counterexample."
 ],
 "C39": [
  "partial",
  "Proved unless the sum of the lengths exceeds 32 bits; counterexamples for that and for domain entries without a terminated header."
 ],
 "C50": [
  "partial",
  "Restrictions of C37. C50_exact has only the restriction about sizes; C50_counterexample: other bytes for the option domain=~#x."
 ],
 "C52": [
  "partial",
  "False if two different host rules of the same kind are for the same host (C52_counterexample): only the first is kept. Proved for all lists without such a pair."
 ],
 "C49": [
  "partial",
  "Violated: the announced size is that of the last bucket of the table, so other selectors are written outside the buffer (C49_counterexample). C49_exact says when the call is defined and what it returns; C49_partial covers selectors that all fall into the last bucket."
 ],
 "C40": [
  "partial",
  "Proved for all histories in which no parse follows a deserialize without a clear in between; C40_counterexample shows that in all the others (with a rule that has a string) destruction frees pointers into the buffer. Separate ownership model: pointers and blocks only; what depends on contents is quantified over."
 ],
 "C56": [
  "partial",
  "Proved for the histories of C40_partial and lists in which no line repeats domain= or tag=; C56_counterexample shows the leak."
 ],
 "C57": [
  "partial",
  "C57_getFilters_is_invisible covers all calls. The reports are proved for all names and rules; C57_one_name_partial excludes plain host rules, which C57_counterexample_host_rules shows to be under no name, and C57_determined_partial excludes empty texts and hosts, for which C57_counterexample_twice shows that asking twice can give different answers."
 ],
 "C58": [
  "partial",
  "What is blocked is proved for all lists. C58_queries_are_safe_partial needs that the list does not end with a line feed; C58_counterexample shows a read out of bounds otherwise."
 ],
 "C12": [
  "partial",
  "False for rules that exclude types when the type is unknown but the domain of the page is given: C12_unknown_type_counterexample. C12_unknown_type_partial is the rest of this part; the other parts hold in full."
 ],
 "C53": [
  "partial",
  "Proved for redirect, important and explicitcancel. False for collapse and donottrack, which are taken for resource types: C53_collapse_and_donottrack, C53_counterexample."
 ],
 "C59": [
  "partial",
  "Proved for sequences of calls that load lists which can be parsed safely (SoundList in SpecRequest.lean) and ask about requests to which no defect recorded for another property applies (Clear in SpecRequest.lean lists these). The rules may have any options: every option is read, also abbreviations, collapse and donottrack, and those without effect. C59_session_exact and C59_text_exact drop the conditions about the indexes: for every list that can be parsed safely and every request with which its rules can be compared safely they say exactly which rules count (SpecExact.lean), in terms of the text; the remaining condition is that without a page no such rule has an empty entry domain=~. C59_every_list says that the lists considered (ListOf and SoundList) are exactly those that can be loaded and have no peculiar host rules (Spec.Peculiar: a host of 2044 bytes or more); C59_safe_lists gives a simple condition for that."
 ],
 "C60": [
  "partial",
  "Loading complete data is proved for all clients (C60_complete), queries afterwards with the restrictions of C35. Violated by every cut: C60_cut_off_counterexample shows for all clients, and for every proper prefix of what they write (below 2 GB), that deserialize reads behind the end. (For the sections of the hash sets and bloom filters this rests on the contracts assumed for those libraries.)"
 ],
 "C61": [
  "partial",
  "Proved for new clients and every rule that does not consist of a host only. Violated: C61_host_rule_counterexample (a host rule that is found is always read beyond its end), C61_reloaded_counterexample (after a reload the host is appended to the text of such a rule), C61_no_page_counterexample (a page left out is the page 'undefined'). C61_text_partial derives the whole answer from the text of the rules, with the restrictions of C59. C61_text_exact: the same for every web request with a page that can be compared with the rules, by the rules that count, and exactly when a host rule is read beyond its end (FindsHost)."
 ],
 "C62": [
  "partial",
  "C62_reloading_is_invisible_partial has the restrictions of C35; both theorems are about data smaller than 2 GB. C62_exact is about all lists, and says which rules decide after each reload; C62_counterexample shows that rules which C35 excludes change answers. Which blocks of memory are freed when lists are loaded on top of a deserialized client is not part of this claim but of C40, which is violated then."
 ],
 "C63": [
  "partial",
  "Restrictions of C35, and data smaller than 2 GB; C63_text_partial has those of C66; C63_text_exact is about all lists that can be loaded and saved, and says which rules count. C63_exact is about all texts, and says which rules a client made from the file goes by. For a list with the UUID of the malware hosts see C58: C63_malware_counterexample (the table of malware lists is empty at this commit). The client left behind by a deserialize that returned false (makeAdBlockClientFromDATFile does not look at the result) is the subject of C80_dat_file_agrees and C80_dat_file_counterexample. C63_counterexample: a rule which C35 excludes."
 ],
 "C64": [
  "partial",
  "Proved without --discover. Violated with it: C64_discover_counterexample shows that every site is counted as matching, for all clients and lists of sites."
 ],
 "C65": [
  "partial",
  "Proved for addresses and built-in fingerprints without quotes, backslashes and line feeds. Violated otherwise: C65_quote_counterexample, C65_backslash_counterexample; C65_not_enabled_counterexample: a null pointer is dereferenced if detection is not enabled."
 ],
 "C66": [
  "partial",
  "Restrictions of C59 (lists that can be parsed safely, requests to which no defect recorded for another property applies) and of C35 (rules the data format cannot represent); lists of up to 20 MB in a client when it is saved (the size of the data follows by C67). C66_saved_session_exact needs only that requests can be compared with the rules, and says which rules decide."
 ],
 "C67": [
  "proved",
  "The size of a bloom filter is taken from its library: adding to it does not change its size (contract FixedBlooms, part of the trusted base)."
 ],
 "C68": [
  "partial",
  "The code violates the property for the header with bad fingerprints (C68_header_counterexample), for the UUID of the malware hosts (C68_malware_counterexample) and for the file made of the empty table (C68_empty_file_counterexample). C68_header_partial says what the header has."
 ],
 "C69": [
  "proved",
  ""
 ],
 "C70": [
  "partial",
  "The code violates the property for names given to -O which are not in FilterOptions (C70_unknown_name_counterexample, C70_rule_names_counterexample, C70_tool_counterexample). C70_verdict_partial has the restrictions of C59 on the rules; C70_verdict_exact is about all lists that can be loaded, and says which rules count."
 ],
 "C71": [
  "partial",
  "The code violates the property for HTML rules, which are not reported (C71_html_counterexample); C71_total_partial has their number as a separate term. C71_reloaded is for data below 2 GB."
 ],
 "C72": [
  "partial",
  "The code violates the property for --stats with --output (C72_stats_output_counterexample), for a file of addresses with --discover (C72_discover_counterexample) and for --discover where it comes upon a rule that consists of a host (C72_discover_host_counterexample). C72_verdict_exact, C72_list_exact, C72_saved_exact and C72_discover_exact say what it answers for all lists that can be loaded, with the rules that count (C59_text_exact, C61_text_exact); C72_verdict_partial, C72_list_partial, C72_saved_partial and C72_discover_partial say the same in plain words with the restrictions of C59, C61 and C66. A data file that deserialize rejects is not reported (C72_refused_no_error), and the answers are those of the client left behind (C72_damaged_counterexample); all other theorems hold for that model of the tool too (C72_into_agrees)."
 ],
 "C73": [
  "partial",
  "The code violates the property for lists that cannot be parsed safely (C73_broken_list_counterexample), and for a host with rules in two lists (C73_second_list_counterexample). C73_sample_partial and C73_perf_partial have the restrictions of C59 and C66 on the lists; C73_sample_exact and C73_perf_exact are about all lists that can be loaded and saved, and say which rules count; what the benchmark says of its header also has the restrictions of C65. Times and statistics are not covered, nor a benchmark whose own data are rejected by deserialize."
 ],
 "C74": [
  "partial",
  "The code violates the property for strings with NUL (C74_nul_counterexample, C74_nul_found_counterexample), for what is not a string (C74_undefined_counterexample, C74_no_text_counterexample) and for getFingerprint (C74_fingerprint_counterexample). C74_exact says for all lists that can be loaded what matches and findMatchingFilters answer, and when the latter reads beyond the text of a rule. C74_verdict_partial has the restrictions of C59, C74_told_partial also those of C61; options are read in UTF-8. Strings with lone surrogates are not covered."
 ],
 "C75": [
  "partial",
  "The code violates the property for objects that have been cleaned up (C75_cleanup_counterexample), for lists loaded after data (C40) and for findMatchingFilters where it comes upon a rule that consists of a host (C75_find_counterexample: after every program of this kind). C75_program_partial covers all other programs, for lists and requests as in C59_text_exact and C66_saved_session_exact; the memory of the buffers is the subject of C40 and C56; a client whose deserialize has failed is not followed further. C75_not_a_buffer says what deserialize does with other values."
 ],
 "C78": [
  "partial",
  "The code violates the full statement for a named file in a test and for two runs within one second (C78_test_counterexample, C78_same_second_counterexample); C78_test_partial covers the files in out. Everything else is proved."
 ],
 "C22": [
  "proved",
  "C22_rule_text covers the usual way of writing a rule and all unusual ones (Spec.RuleText.WellFormed); C22_every_line shows that every line that can be loaded is such a rule or holds no rule that could apply. Only rules for a host of 2044 bytes or more (Spec.Peculiar) are left out of it."
 ],
 "C80": [
  "partial",
  "The code violates the full statement: C80_matches_counterexample and C80_find_counterexample show, for all clients, that rules of refused data are in force. C80_blocks_nothing_partial covers matches when the set of exceptions for hosts was not reached. That nothing of the earlier rules is left and that clear or other data make the client as new is proved in full (C80_nothing_old, C80_recovers). C80_dat_file_counterexample: the same for clients made from damaged data files."
 ],
 "C82": [
  "partial",
  "The code violates the full statement: C82_literal_star_counterexample (rules with bars, for all such lists) and C82_double_star_counterexample (banner**). C82_redundant_stars_partial covers all other rules: text without bars, or behind the host of a || rule, with any number of stars at the beginning, between, and one at the end."
 ],
 "C83": [
  "partial",
  "False for rules that consist of a host (C83_host_counterexample, see C52). C83_split_partial covers all others, in all lists."
 ],
 "C84": [
  "partial",
  "False for rules that consist of a host (C84_host_counterexample, see C52) and for rules without a fingerprint which only exclude domains (C84_excluding_counterexample). C84_rule_does_not_apply_partial covers all other rules, and these too unless they are in the way of another (Meddles in SpecRuleLaws.lean)."
 ],
 "C85": [
  "partial",
  "False if there are further exceptions (C85_host_counterexample, C85_excluding_counterexample). C85_exceptions_undo_partial: the exceptions are the blocking rules in the same order. C85_covered_partial: each blocking rule is covered by an exception to which the defects do not apply."
 ],
 "C86": [
  "partial",
  "False for requests of unknown type (C86_unknown_counterexample). C86_page_partial: the type is known, or no rule excludes types. The part about types is proved in full (C86_type)."
 ],
 "C87": [
  "partial",
  "False if the covering rule is not in force because of the defects of C52 and C84 (C87_host_counterexample). C87_covered_partial covers all rules to which these do not apply (Reliable and Meddles in SpecRuleLaws.lean)."
 ],
 "C88": [
  "partial",
  "The full statement is false: C88_host_counterexample, C88_path_counterexample (also for match-case). C88_lower_partial is the part that holds: comparing as written blocks no more than comparing in lower case does."
 ],
 "C89": [
  "partial",
  "False for rules that consist of a host (C89_host_counterexample, see C52), and for types if neither type nor page of the request is known (C89_unknown_counterexample). C89_party_partial and C89_type_partial cover everything else."
 ],
 "C90": [
  "partial",
  "The full statement is false: C90_user_counterexample, C90_password_counterexample, C90_blob_counterexample. C90_other_host_partial and C90_subdomain_partial are what holds for user names without passwords."
 ],
 "C91": [
  "partial",
  "The full statement is false: C91_separator_counterexample, C91_anchored_counterexample, C91_tight_counterexample, C91_prefix_counterexample, C91_elsewhere_counterexample. C91_exact_partial: exact for simple and regular rules, and for those with two bars, a host that does not occur again in the address, and a regular text (SpecDocumented.lean). C91_no_more_partial: nothing is blocked which no rule is meant for, except by rules with two bars, a host that occurs again in the address, and more. C91_no_less_partial: what these are meant for is blocked."
 ],
 "C92": [
  "partial",
  "The full statement is false: C92_separator_counterexample. C92_longer_partial: for additions that begin with a separator the library knows, and for rules without ^. C92_exception_partial: the same for exceptions."
 ],
 "C94": [
  "partial",
  "The full statement is false: C94_dot_counterexample. C94_subdomain_partial: for rules for hosts with a dot. C94_exception_partial: the same for exceptions."
 ],
 "C95": [
  "partial",
  "The full statement is false: C95_party_counterexample, C95_dot_counterexample. C95_subdomain_page_partial: for domains with a dot, if the party does not matter."
 ],
 "C96": [
  "partial",
  "The full statement is false: C96_neither_counterexample, C96_both_counterexample. C96_both_partial, C96_neither_partial, C96_either_partial (two lists) and C96_several_partial (any number): for requests for which the rules are Independent of each other."
 ],
 "C97": [
  "partial",
  "The full statement is false: C97_host_counterexample, C97_excluding_counterexample. C97_one_by_one_partial: for requests for which the rules are Independent of each other."
 ],
 "C98": [
  "partial",
  "The full statement is false: C98_dot_counterexample, C98_first_counterexample, C98_host_counterexample. C98_separator: `||h` and `||h^` in every list. C98_star_partial: `||h^*`, for hosts with a dot of which no other rule of the kind consists."
 ],
 "C100": [
  "partial",
  "The full statement is false: C100_first_counterexample, C100_dot_counterexample. C100_exception_partial: the first exception that consists of the host, for hosts with a dot or requests to the host itself."
 ],
 "C102": [
  "partial",
  "The full statement is false: C102_type_counterexample, C102_page_counterexample. C102_type_partial: lists without excluded types, collapse and donottrack. C102_page_partial: lists in which the rules with domains consist of a host or have a fingerprint."
 ],
 "C108": [
  "partial",
  "The code violates the full statement: C108_two_domains, C108_exceptions. C108_exactly says what is reported for every line; C108_reports_partial is the property for lines with at most one domain that are not exceptions written #@#."
 ],
 "C109": [
  "partial",
  "The code violates the full statement: C109_tag_counterexample, C109_no_domain_counterexample. C109_exact says what is reported for every rule; C109_reports_partial is the property for rules whose domain= list survives."
 ],
 "C110": [
  "partial",
  "The full statement is false: C110_counterexample, C110_reports_counterexample. C110_answers_partial: for clients with any history and rules which the format represents; C110_lists_partial, C110_found_partial: for the text of two lists; C110_statistics: the numbers of rules, without restriction on the rules. C110_reports_partial: what getFilters reports, for rules whose domains survive being saved. As elsewhere, data of 2 GB and more are left out."
 ],
 "C111": [
  "partial",
  "The full statement is false: C111_dot_counterexample, C111_page_counterexample. C111_redundant_domains_partial: for domains with a dot, if the page is known or every rule with a domain= option consists of a host or can be indexed by its text."
 ],
 "C112": [
  "partial",
  "The full statement is false: C112_unknown_counterexample. C112_same_types_partial: for requests of a known type, and for others if the rules list types, and exclude types, alike."
 ],
 "C113": [
  "partial",
  "The full statement is false: C113_host_counterexample, C113_unknown_counterexample, C113_dot_counterexample, C113_tags_counterexample. Each of the other theorems is the one about matches it refers to, under the same conditions or fewer; C113_order, C113_separator, C113_aside, C113_tags_enabled and C113_again need none."
 ],
 "C114": [
  "partial",
  "The code violates the full statement (C114_unknown_counterexample, C114_separator_counterexample, C114_dot_counterexample, C114_party_counterexample, C114_first_counterexample, C114_user_counterexample). Proved without further conditions for types, schemes, lists of hosts and lists meant for other requests; the rest under the conditions of C86, C90, C92, C94, C95 and C100."
 ],
 "C115": [
  "partial",
  "The code violates the full statement (C115_neither_counterexample, C115_host_counterexample, C115_covered_counterexample). C115_both, C115_all, C115_apart, C115_repeated, C115_interleaving and the theorems about tags need no conditions; the others are proved unless different rules of a kind consist of the same host."
 ],
 "C116": [
  "partial",
  "The code violates the full statement (C116_type_counterexample, C116_page_counterexample). C116_type_partial is for blocking rules which exclude no types; C116_page holds for every request of known type."
 ],
 "C117": [
  "partial",
  "The code violates the full statement (C117_separator_counterexample, C117_anchored_counterexample, C117_tight_counterexample, C117_prefix_counterexample, C117_elsewhere_counterexample, C117_case_counterexample). Proved for the rules and requests of C91 and C88, under fewer conditions."
 ]
}