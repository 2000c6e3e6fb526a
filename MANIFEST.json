{"claims":[
{"property": "C01", "status": "proved", "theorems": ["Mastic.C01_shares_reconstruct"], "note": "All prefixes of the evaluated index, any cipher, hash and seeds."},
{"property": "C02", "status": "proved", "theorems": ["Mastic.C02_proofs_agree", "Mastic.C02_state_proofs_agree"], "note": "Any common starting proof."},
{"property": "C03", "status": "proved", "theorems": ["Mastic.C03_eval_bit_returns_iff", "Mastic.C03_eval_returns_iff", "Mastic.C03_domain_size"], "note": "Panic branch included: the theorems are equivalences."},
{"property": "C04", "status": "proved", "theorems": ["Mastic.C04_eval_tree_honest"], "note": ""},
{"property": "C05", "status": "proved", "theorems": ["Mastic.C05_cache_transparent", "Mastic.C05_transcript"], "note": "Any key, also malformed ones; the transcript is characterised as well."},
{"property": "C06", "status": "proved", "theorems": ["Mastic.C06_eval_tree_sound"], "note": "Adversarial keys. Collision freedom is only assumed for the two transcripts at hand."},
{"property": "C07", "status": "partial", "theorems": ["Mastic.C07_outside_words_partial", "Mastic.C07_false_alpha_recoverable", "Mastic.C07_false_shares_disjoint"], "note": "False of the code; the negation is proved: alpha is a function of either single key, and shares of different strings are disjoint. C07_outside_words_partial: everything else in a share is independent of the string."},
{"property": "C08", "status": "proved", "theorems": ["Mastic.C08_layer_sums_to_beta", "Mastic.C08_allPaths"], "note": "Adversarial keys, any depth."},
{"property": "C09", "status": "proved", "theorems": ["Mastic.C09_expand_dir_history_independent", "Mastic.C09_convert_history_independent", "Mastic.C09_direction_consistent"], "note": "From every earlier stream state and in both builds; results given as blocks of the specified keystream."},
{"property": "C10", "status": "proved", "theorems": ["Mastic.C10_chunk_independent", "Mastic.C10_total_only", "Mastic.C10_keystream_layout"], "note": "Release build, any request sizes."},
{"property": "C11", "status": "proved", "theorems": ["Mastic.C11_expand_dir_no_assertion", "Mastic.C11_convert_no_assertion", "Mastic.C11_drained_buffer_panics", "Mastic.C11_long_then_short_panics"], "note": "Positive part for expand_dir and convert; negative part for every drained buffer and for every 128k-byte request followed by a short one."},
{"property": "C12", "status": "partial", "theorems": ["Mastic.C12_false_witness", "Mastic.C12_false_counters_differ", "Mastic.C12_false_right_child_differs", "Mastic.C12_left_child_partial"], "note": "False of the code: counters differ for every value, and right children differ for every seed under any cipher with injective keystream block; C12_false_witness: with mixed machines a report no longer reconstructs. What holds (left child, control bits) is C12_left_child_partial."},
{"property": "C13", "status": "proved", "theorems": ["Mastic.C13_field_from_bytes", "Mastic.C13_field_sampling"], "note": ""},
{"property": "C14", "status": "proved", "theorems": ["Mastic.C14_masked_bits_ignored", "Mastic.C14_other_bits_change_left_seed", "Mastic.C14_root_seed_masked_bits"], "note": ""},
{"property": "C15", "status": "proved", "theorems": ["Mastic.C15_roundtrip_ascii", "Mastic.C15_roundtrip_nonascii", "Mastic.C15_bits_to_string_iff", "Mastic.C15_bits_to_string_panics_iff"], "note": "Strings are modelled as UTF-8 byte lists."},
{"property": "C16", "status": "proved", "theorems": ["Mastic.C16_panics_iff", "Mastic.C16_bits", "Mastic.C16_injective"], "note": ""},
{"property": "C17", "status": "proved", "theorems": ["Mastic.C17_chars", "Mastic.C17_injective", "Mastic.C17_extend", "Mastic.C17_hash_input_injective"], "note": ""},
{"property": "C18", "status": "proved", "theorems": ["Mastic.C18_vec_add", "Mastic.C18_vec_sub", "Mastic.C18_inverse", "Mastic.C18_xor_in_place", "Mastic.C18_xor_vec"], "note": ""},
{"property": "C19", "status": "proved", "theorems": ["Mastic.C19_take_none", "Mastic.C19_take_some"], "note": ""},
{"property": "C20", "status": "proved", "theorems": ["Mastic.C20_prune", "Mastic.C20_select_mem"], "note": "Panic condition is an equivalence."},
{"property": "C21", "status": "proved", "theorems": ["Mastic.C21_reports_evolve", "Mastic.C21_index_stable", "Mastic.C21_new_reports_included"], "note": "Any request sequence without reset, any arguments."},
{"property": "C22", "status": "proved", "theorems": ["Mastic.C22_frontier_exact", "Mastic.C22_since_tree_init"], "note": "Induction over arbitrary request histories; the set of reports covered is pinned down by C22_since_tree_init."},
{"property": "C23", "status": "proved", "theorems": ["Mastic.C23_crawl_values", "Mastic.C23_crawl_last_values", "Mastic.C23_reconstruct"], "note": "For every state reachable by any request history; C23_reconstruct is for arbitrary key pairs."},
{"property": "C24", "status": "proved", "theorems": ["Mastic.C24_keep_iff", "Mastic.C24_returns_iff"], "note": ""},
{"property": "C25", "status": "proved", "theorems": ["Mastic.C25_final_values"], "note": ""},
{"property": "C26", "status": "proved", "theorems": ["Mastic.C26_exact_despite_cheaters", "Mastic.C26_exact", "Mastic.C26_from_reset"], "note": "C26_exact: honest population, strings of common length d >= 2, fewer than 2^64 clients, some string reaching max(1,threshold), external FLP complete: the run completes, excludes nobody, results = exactly the heavy strings in lexicographic order with histogram and number of holders. C26_exact_despite_cheaters: the same with arbitrary further clients whose FLP check fails (well-formed keys). C26_from_reset: from reset and upload."},
{"property": "C27", "status": "partial", "theorems": ["Mastic.C27_empty_partial", "Mastic.C27_false_panics"], "note": "False of the code: C27_false_panics proves the index panic for every honest population (d >= 3) in which no prefix of length d-2 reaches max(1,threshold). C27_empty_partial: if such a prefix exists but no string is heavy, the run returns and prints nothing."},
{"property": "C28", "status": "proved", "theorems": ["Mastic.C28_retry_same_level", "Mastic.C28_final_retry"], "note": "Includes the final retry, which changes only the aggregated values."},
{"property": "C29", "status": "proved", "theorems": ["Mastic.C29_root_separates", "Mastic.C29_root_exists_iff", "Mastic.C29_lengths_needed"], "note": "Collision freedom is assumed only for the byte strings hashed for the two roots at hand."},
{"property": "C30", "status": "proved", "theorems": ["Mastic.C30_start", "Mastic.C30_located", "Mastic.C30_quiet"], "note": "For every number of clients and every set of differing clients with at least one agreeing client, when nobody was excluded before and there is no truncated-hash collision in the Merkle trees: run_level completes with exactly the differing clients excluded and the frontier is again a level state. C30_quiet: no difference, no exclusion. C30_start: the states after tree_init are level states. Earlier exclusions: C31."},
{"property": "C31", "status": "partial", "theorems": ["Mastic.C31_positions", "Mastic.C31_located_partial", "Mastic.C31_false"], "note": "False of the code: C31_false (positions among the included clients are used as indices into the full report list, so a client behind an excluded one is never removed and another client is removed instead). C31_positions says exactly which clients are excluded; C31_located_partial is the case where no client before a differing one was excluded."},
{"property": "C32", "status": "partial", "theorems": ["Mastic.C32_false_split", "Mastic.C32_false_nobody", "Mastic.C32_completes_partial"], "note": "False of the code: C32_false_split (chunks(0) when exclusions made the tree smaller than the number of clients), C32_false_nobody (nobody included). C32_completes_partial gives the exact condition for completion when some digests differ."},
{"property": "C33", "status": "proved", "theorems": ["Mastic.C33_request_bound", "Mastic.C33_terminates", "Mastic.C33_search_level"], "note": "The servers are an arbitrary function with arbitrary state, so adversarial answers are included; bound attained by an example."},
{"property": "C34", "status": "partial", "theorems": ["Mastic.C34_false_checks", "Mastic.C34_false_count", "Mastic.C34_first_level_partial"], "note": "The property is false of the code; its negation is proved: any change of counter entries below the first level leaves every check, answer shape, panic and inclusion flag of a server unchanged, for every request script, while such a change sets the reconstructed count of a prefix to any value. C34_first_level_partial: at the first level the counter is bound up to multiples of 2^64 (0, or 1 or 2 modulo 2^64)."},
{"property": "C35", "status": "partial", "theorems": ["Mastic.C35_false_undetected", "Mastic.C35_false_any_weight", "Mastic.C35_attribute_mode_partial"], "note": "The property is false of the code; its negation is proved: any change of the weight entries of the last correction word leaves the whole run (panics, exclusions, final proofs, result paths and counters) unchanged, while such a change gives the leaf any weight. C35_attribute_mode_partial: in attribute-based mode leaf values are bound to the verified weight by the sum along the path."},
{"property": "C36", "status": "partial", "theorems": ["Mastic.C36_compared_partial", "Mastic.C36_nobody_excluded", "Mastic.C36_false_run"], "note": "False of the code as stated; C36_false_run proves the negation in general (one rejected client within the first batch suffices: arbitrary last-level correction words are accepted). C36_compared_partial proves the part that holds (clients whose batch ends within the included clients), C36_nobody_excluded the full statement when nobody is excluded."},
{"property": "C37", "status": "proved", "theorems": ["Mastic.C37_reset_fresh", "Mastic.C37_reset_zero_key_is_start", "Mastic.C37_poisoned_forever", "Mastic.C37_poisoned_iff"], "note": "Responses and state; poisoning characterised exactly."},
{"property": "C38", "status": "partial", "theorems": ["Mastic.C38_prio3_report_takes_server_down", "Mastic.C38_mastic_report_takes_plain_metrics_down", "Mastic.C38_short_key_takes_server_down", "Mastic.C38_bad_flp_share_takes_server_down", "Mastic.C38_wellformed_partial"], "note": "False of the code: the negation is proved for each kind of malformed report (four theorems). C38_wellformed_partial is the part that holds."},
{"property": "C39", "status": "proved", "theorems": ["Mastic.C39_joint_rand", "Mastic.C39_query_rand"], "note": "Any XOF; query randomness for honest and tampered reports alike."},
{"property": "C40", "status": "proved", "theorems": ["Mastic.C40_exact", "Mastic.C40_batch_independent", "Mastic.C40_honest_kept", "Mastic.C40_all_honest"], "note": "C40_exact, C40_batch_independent: arbitrary reports. Honest reports: completeness of the external FLP at the report's own query randomness is an explicit hypothesis, met by the toy instance."},
{"property": "C41", "status": "proved", "theorems": ["Mastic.C41_beta_shares"], "note": "Stated on the answers to run_flp_queries; the other reports are arbitrary well-formed ones."},
{"property": "C42", "status": "partial", "theorems": ["Mastic.C42_false_one_bit", "Mastic.C42_false_witness", "Mastic.C42_partial"], "note": "False of the code for data_bits = 1; negation proved generally and with a counted rejected report. C42_partial covers data_bits >= 2."},
{"property": "C43", "status": "partial", "theorems": ["Mastic.C43_partial", "Mastic.C43_false_release", "Mastic.C43_false_witness"], "note": "Proved for debug builds; negation proved for release builds (the removal is inside debug_assert!), with a concrete driver run."},
{"property": "C44", "status": "partial", "theorems": ["Mastic.C44_false_debug", "Mastic.C44_false_driver", "Mastic.C44_false_batch", "Mastic.C44_false_witness", "Mastic.C44_partial"], "note": "Proved: release builds, and batches in which no report fails both checks. Negation proved for debug builds (whole batches and a concrete run)."},
{"property": "C45", "status": "partial", "theorems": ["Mastic.C45_partial", "Mastic.C45_false_cumulative", "Mastic.C45_false_witness"], "note": "Proved when nothing is stored yet (debug builds). Negation proved: for honest reports in several batches every result is cumulative."},
{"property": "C46", "status": "proved", "theorems": ["Mastic.C46_order_independent", "Mastic.C46_ask_again", "Mastic.C46_false_ask_rejected"], "note": "Every iteration order, every validation sequence; repeated requests name no rejected reports (with a non-empty list the second request panics in debug builds, also proved)."},
{"property": "C47", "status": "proved", "theorems": ["Mastic.C47_honest_exact"], "note": "Single batch, external FLP assumed complete at the query randomness of each report."},
{"property": "C48", "status": "proved", "theorems": ["Mastic.C48_same_pair", "Mastic.C48_same_rejected"], "note": "Assumes only that a decoded preparation share is the encoded one (and for equal counts that both final steps accept the same messages)."},
{"property": "C49", "status": "proved", "theorems": ["Mastic.C49_consumes", "Mastic.C49_second_call"], "note": "Every reachable state, range and peer list."},
{"property": "C50", "status": "proved", "theorems": ["Mastic.C50_upload_batches", "Mastic.C50_query_ranges", "Mastic.C50_metrics_ranges", "Mastic.C50_zero_batch"], "note": "Upload, query and metrics loops; a zero batch size is shown to fail."},
{"property": "C51", "status": "proved", "theorems": ["Mastic.C51_matching_shares", "Mastic.C51_batch_independent", "Mastic.C51_upload_returns"], "note": "Any picks, any batch size; includes tampered shares."},
{"property": "C52", "status": "partial", "theorems": ["Mastic.C52_other_tampering_partial", "Mastic.C52_false_key_tampering_is_noop", "Mastic.C52_false_upload_unchanged", "Mastic.C52_false_flip_is_masked"], "note": "False of the code: key tampering is a no-op, and even applied in place the flipped bit of the root seed would be masked by expand_dir; negations proved. C52_other_tampering_partial: FLP and Prio3 tampering do change the share."},
{"property": "C53", "status": "partial", "theorems": ["Mastic.C53_printed_partial", "Mastic.C53_false_not_all_printed"], "note": "Exact characterisation of what is printed; that all results are printed is false, negation proved."},
{"property": "C54", "status": "partial", "theorems": ["Mastic.C54_false_largest_sample_panics", "Mastic.C54_sampling_partial"], "note": "False of the code: the largest sample panics. C54_sampling_partial gives the exact behaviour."},
{"property": "C55", "status": "proved", "theorems": ["Mastic.C55_shares_add_up", "Mastic.C55_first_share_is_randomness", "Mastic.C55_second_share_hides", "Mastic.C55_sent", "Mastic.C55_picked"], "note": "Shares add up; each share alone is independent of the proof (bijection on the randomness)."},
{"property": "C56", "status": "proved", "theorems": ["Mastic.C56_lockstep", "Mastic.C56_driver_assertion_holds"], "note": "Both servers run the same kind of build. Consistency covers every request kind; C56_driver_assertion_holds connects it to the driver."},
{"property": "C57", "status": "proved", "theorems": ["Mastic.C57_late_report_crawl", "Mastic.C57_late_report_last"], "note": "All crawl requests including retries; tree_crawl_last and run_flp_queries when the frontier is not empty."},
{"property": "C58", "status": "proved", "theorems": ["Mastic.C58_honest_exact"], "note": "Completeness of libprio's Prio3 (preparation shares read back, preparation, unsharding) is a hypothesis; proved of the written-out Prio3 in C85, satisfied by the toy instance."},
{"property": "C59", "status": "partial", "theorems": ["Mastic.C59_false_report", "Mastic.C59_false_run", "Mastic.C59_low64_partial"], "note": "False of the code. C59_false_report: every honest report has variants whose weights are off by k*2^64 at all prefixes of length >= 2 and which no check sees; C59_false_run: a full run with such a client reports the shifted weight and excludes nobody. C59_low64_partial: what the check does bind (one bucket, one prefix, no hash collision): the low 64 bits."},
{"property": "C60", "status": "proved", "theorems": ["Mastic.C60_setup", "Mastic.C60_whh", "Mastic.C60_abm", "Mastic.C60_pm", "Mastic.C60_before_last", "Mastic.C60_reachable"], "note": "Each completed driver phase is a script of matching, answered requests for both servers; reachable states lead to reachable states."},
{"property": "C61", "status": "proved", "theorems": ["Mastic.C61_run_refines", "Mastic.C61_build_independent", "Mastic.C61_exact_despite_caught"], "note": "C61_run_refines: runWhh equals Spec.wholeRun (same panic or same report lists, results, printed filter) for arbitrary well-formed reports and FLP decisions, given no truncated BLAKE3 collision in states whose digests differ; C61_build_independent; C61_exact_despite_caught: FLP-passing cheaters exposed by the first digests are exactly the excluded ones and the results are exact. d >= 2."},
{"property": "C62", "status": "proved", "theorems": ["Mastic.C62_weighted_heavy_hitters", "Mastic.C62_attribute_based_metrics", "Mastic.C62_attribute_tampering", "Mastic.C62_plain_metrics", "Mastic.C62_plain_tampering", "Mastic.C62_requires"], "note": "C62_weighted_heavy_hitters (exact results or index panic, clients with tampered FLP proofs excluded), C62_attribute_based_metrics (panic iff the largest Zipf sample is drawn, else cumulative histograms), C62_plain_metrics (exact counts), C62_requires. The draws are arguments of the model; d >= 2 in the first mode, C62_attribute_tampering: FLP tampering in the second mode (debug excludes, release prints but counts everybody). C62_plain_tampering: tampered input shares in the third mode, given that Prio3 rejects them."},
{"property": "C63", "status": "proved", "theorems": ["Mastic.C63_runs", "Mastic.C63_debug_exact", "Mastic.C63_release_counts_all"], "note": "C63_runs: arbitrary well-formed reports, both builds, outcome fixed by what the two checks say about each report (Spec.Judged). C63_debug_exact: failing reports excluded, histograms of the honest clients exact. C63_release_counts_all: rejected reports are printed and still counted. Verifiers of all proofs have one length (Spec.VerifierLen) in the last one."},
{"property": "C64", "status": "proved", "theorems": ["Mastic.C64_runs", "Mastic.C64_unprepared_panics", "Mastic.C64_exact_despite_rejected"], "note": "C64_runs (arbitrary outputs per server, equality with Spec.pmBatchOut batch by batch, panics included), C64_unprepared_panics, C64_exact_despite_rejected (assumes Prio3 completeness for the honest reports at hand and unsharding as addition; both proved of the written-out Prio3 in C85)."},
{"property": "C65", "status": "partial", "theorems": ["Mastic.C65_false_unbound", "Mastic.C65_false_forgery", "Mastic.C65_honest_passes", "Mastic.C65_false_run", "Mastic.C65_fixed_weight_partial"], "note": "False of the code. C65_false_unbound: same joint randomness for every string and weight. C65_false_forgery: an accepted weight that is not one-hot, for every joint randomness with r0 != 0, r0 + r1 != 0. C65_false_run: runs print sums of such weights. C65_honest_passes: honest reports are the one-hot case. C65_fixed_weight_partial: the counting bound for weights fixed in advance (uses that the modulus is prime, proved by Lucas certificates). The circuit is libprio 0.15.3's Histogram, an external fact stated as Spec.histogramCheck and Spec.CircuitCompleteAt."},
{"property": "C66", "status": "partial", "theorems": ["Mastic.C66_false_same_keystream", "Mastic.C66_false_right_child", "Mastic.C66_false_related_seeds", "Mastic.C66_separate_partial"], "note": "False of the code. C66_false_same_keystream: for a quarter of all seeds the conversion returns the two children. C66_false_right_child: further seeds on other architectures. C66_false_related_seeds: the value of a seed is the converted seed of the next one. C66_separate_partial: on x86_64, for the other seeds, the conversion says nothing about the children."},
{"property": "C67", "status": "partial", "theorems": ["Mastic.C67_zeroed_partial", "Mastic.C67_chunks", "Mastic.C67_next", "Mastic.C67_false_dirty", "Mastic.C67_false_printed", "Mastic.C67_seed_xor"], "note": "False of the code as stated: fill_bytes XORs into the buffer, so it is right exactly for zeroed buffers (debug builds panic otherwise, C67_false_dirty), and prints the produced bytes (C67_false_printed). For zeroed buffers it holds: C67_zeroed_partial, C67_chunks, C67_next; C67_seed_xor for the XOR of seeds. The type is not used by the rest of the program."},
{"property": "C68", "status": "partial", "theorems": ["Mastic.C68_false_debug", "Mastic.C68_server", "Mastic.C68_false_server_override", "Mastic.C68_driver", "Mastic.C68_driver_requires", "Mastic.C68_false_short_flag", "Mastic.C68_system_partial", "Mastic.C68_heavy_hitters"], "note": "False of the code as stated. C68_false_debug: with clap debug assertions no program starts (short option s declared twice). C68_false_server_override: servers ignore the address options. C68_false_short_flag: -s is server 0 only. What holds: C68_server (exact), C68_driver, C68_driver_requires, C68_system_partial (documented start), C68_heavy_hitters (from the command lines to the result). Assumed about clap 2: first character of a short name, first match, duplicates and missing options end the program."},
{"property": "C69", "status": "partial", "theorems": ["Mastic.C69_between", "Mastic.C69_special", "Mastic.C69_fraction_partial", "Mastic.C69_false_below"], "note": "False of the code as stated: C69_false_below (threshold one half, odd number of clients: a string below the fraction is reported). C69_between: the integer threshold is t*n rounded down or up, with IEEE rounding modelled exactly. C69_fraction_partial: all strings at the fraction are reported and none below the fraction rounded down. C69_special: NaN, negative, infinite."},
{"property": "C70", "status": "partial", "theorems": ["Mastic.C70_shares", "Mastic.C70_count", "Mastic.C70_false_biased", "Mastic.C70_entry_partial"], "note": "False of the code: C70_false_biased (for any two different proofs of one length some helper share has more draws leading to it from the first). C70_shares: shares add up, leader share independent of the proof. C70_count: exact number of draws per helper share. C70_entry_partial: bias of at most 2^69 of 2^128 draws per entry."},
{"property": "C71", "status": "proved", "theorems": ["Mastic.C71_depends_only", "Mastic.C71_threshold", "Mastic.C71_totals", "Mastic.C71_more_clients"], "note": "Under the hypotheses of C62 bundled in Spec.WhhRun (sensible configuration, complete FLP, tampered proofs rejected)."},
{"property": "C72", "status": "partial", "theorems": ["Mastic.C72_false_report", "Mastic.C72_false_run", "Mastic.C72_false_other_half", "Mastic.C72_one_hot_partial"], "note": "False of the code: the two servers never compare their correction words, so a client can move any count from the other half of the strings to its own string (C72_false_report, C72_false_run) and suppress all strings of the other half (C72_false_other_half). C72_one_hot_partial: with shared correction words and no hash collision, of two strings of one length at which the proofs agree one shares zero, or the four seeds make an XOR collision."},
{"property": "C73", "status": "partial", "theorems": ["Mastic.C73_false_report", "Mastic.C73_false_run", "Mastic.C73_bound_partial"], "note": "False of the code: with equal root seeds, one report with public parts equal for both servers passes all checks and counts for every string (C73_false_report, C73_false_run: all 2^d strings are reported). C73_bound_partial: the bound holds for runs of the driver's own clients."},
{"property": "C74", "status": "partial", "theorems": ["Mastic.C74_false_report", "Mastic.C74_false_run", "Mastic.C74_false_dictated", "Mastic.C74_total_partial"], "note": "False of the code: the two servers never compare their correction words, so a client can move any vector from the string that leaves its own string at bit l to its own prefixes; this is undetected whenever no attribute lies below another string of length l+1 (C74_false_report, C74_false_run), and in a query about one attribute a single holder dictates the final histogram (C74_false_dictated). C74_total_partial: the total over all attributes of one length is bound to the verified weights."},
{"property": "C75", "status": "proved", "theorems": ["Mastic.C75_returns", "Mastic.C75_refines", "Mastic.C75_terminates", "Mastic.C75_progress"], "note": "The driver is a process (Model/System) and two servers and any number of drivers take steps in any order. C75_refines: every maximal execution of one driver ends as driverMain does; C75_returns; C75_terminates (with any number of active drivers); C75_progress."},
{"property": "C76", "status": "partial", "theorems": ["Mastic.C76_false_mixed_up", "Mastic.C76_false_crossed", "Mastic.C76_false_poisoned", "Mastic.C76_false_light_population", "Mastic.C76_sequential_partial"], "note": "False of the code: C76_false_mixed_up (a driver shows the result of another one), C76_false_crossed (shares of different clients at one position), C76_false_poisoned and C76_false_light_population (a run of honest clients without heavy prefixes ends all later sessions). C76_sequential_partial: sessions that do not overlap, on servers that have not panicked, do not disturb each other."},
{"property": "C77", "status": "proved", "theorems": ["Mastic.C77_request", "Mastic.C77_response", "Mastic.C77_prefix_free", "Mastic.C77_call", "Mastic.C77_main"], "note": "Model/Wire has bincode for all requests and answers (both integer encodings) and calls over a connection with a frame limit. C77_main: a run over the wire shows what driverMain shows."},
{"property": "C78", "status": "proved", "theorems": ["Mastic.C78_printed", "Mastic.C78_share_size", "Mastic.C78_upload_size"], "note": "Hypothesis ProofLen: the FLP (libprio) has proofs of one length per number of buckets. The formula gives the sizes quoted in artifact/README.md for the shipped configuration."},
{"property": "C79", "status": "partial", "theorems": ["Mastic.C79_false_run", "Mastic.C79_false_some_batch", "Mastic.C79_false_answer", "Mastic.C79_upload_partial", "Mastic.C79_limit_monotone_partial"], "note": "False of the code: C79_false_run, C79_false_some_batch (uploads), C79_false_answer (FLP verifiers). C79_upload_partial: a batch is stored exactly if it fits into a frame; C79_limit_monotone_partial: the limit only makes runs fail."},
{"property": "C80", "status": "partial", "theorems": ["Mastic.C80_false_counted_again", "Mastic.C80_false_stored_again", "Mastic.C80_distinct_partial"], "note": "False of the code: C80_false_counted_again (k copies of one honest report are counted k times), C80_false_stored_again (every request stores again). C80_distinct_partial: as long as stored nonces are distinct, every reported number is a number of different reports."},
{"property": "C81", "status": "proved", "theorems": ["Mastic.C81_made_proofs", "Mastic.C81_prover", "Mastic.C81_circuit", "Mastic.C81_complete", "Mastic.C81_lengths", "Mastic.C81_run", "Mastic.C81_attribute_run"], "note": "Model/Libprio writes out the histogram circuit, its wire polynomials, prover, query and decision; C81_circuit and C81_complete discharge the completeness hypotheses of the theorems elsewhere. C81_run assumes of the XOF only the length of its output, and that tampered reports have a nonzero second seed. C81_run and C81_attribute_run are whole runs of both Mastic modes."},
{"property": "C82", "status": "proved", "theorems": ["Mastic.C82_sound", "Mastic.C82_strategy", "Mastic.C82_tampered", "Mastic.C82_tampered_unnoticed"], "note": "C82_tampered_unnoticed shows that the condition on the seed of the second wire is needed: for bucket 0 of at most two buckets a zero seed makes the tampering invisible at every query point."},
{"property": "C83", "status": "proved", "theorems": ["Mastic.C83_sum", "Mastic.C83_verifier_hides"], "note": "Statement about the sum of the two verifier shares, which is what both servers and the driver see; ParallelSum with any positive chunk length."},
{"property": "C84", "status": "proved", "theorems": ["Mastic.C84_one_bit", "Mastic.C84_nobody", "Mastic.C84_no_bits", "Mastic.C84_unset"], "note": "C84_one_bit, C84_nobody, C84_no_bits, C84_unset; completes the case distinction left open by C62 (d >= 2 and at least one accepted client)."},
{"property": "C85", "status": "proved", "theorems": ["Mastic.C85_shard", "Mastic.C85_reads", "Mastic.C85_unshard", "Mastic.C85_complete", "Mastic.C85_bad_point", "Mastic.C85_ids", "Mastic.C85_run", "Mastic.C85_sizes", "Mastic.C85_share_size", "Mastic.C85_printed"], "note": "Model/Prio3 writes out sharding, encoding, preparation and unsharding of libprio's Prio3 on top of Model/Libprio, the extendable output function arbitrary; C85_shard, C85_reads, C85_unshard and C85_complete are exactly the hypotheses of C58, C62 and C64. Transcribed from documentation: libprio's source is not in the sandbox."},
{"property": "C86", "status": "proved", "theorems": ["Mastic.C86_formats", "Mastic.C86_sound", "Mastic.C86_binding", "Mastic.C86_agree", "Mastic.C86_strategy", "Mastic.C86_split"], "note": "The counts program the extendable output function at the points in question (Spec.setJoint, Spec.setQuery), which is the random-oracle argument without probabilities. C86_split assumes that the helper's share does not add up to one half."},
{"property": "C87", "status": "proved", "theorems": ["Mastic.C87_flip", "Mastic.C87_few", "Mastic.C87_run"], "note": "C87_run takes as hypothesis that no flipped report is lucky (Spec.FlipsUnlucky); C87_few counts how rarely one is."},
{"property": "C88", "status": "proved", "theorems": ["Mastic.C88_plain_heavy_hitters", "Mastic.C88_nothing_printed"], "note": "C88_nothing_printed is the whole-run form of the disagreement recorded under C53."},
{"property": "C89", "status": "proved", "theorems": ["Mastic.C89_leader", "Mastic.C89_helper", "Mastic.C89_together"], "note": "Information-theoretic form of privacy: an explicit bijection of finite sets of values with which the extendable output function answers the client (Spec.setHelper, Spec.setLeader); that its answers on unknown seeds are uniform is the usual idealisation and not part of the theorem."},
{"property": "C90", "status": "proved", "theorems": ["Mastic.C90_view", "Mastic.C90_together", "Mastic.C90_reuse"], "note": "Information-theoretic form, an explicit bijection. Spec.setValues programs the cipher on the inputs behind the other server's values; FreshValues says that these inputs are used once and for nothing else (true up to collisions among 128-bit blocks). The code's sampling of field elements from 128 bits is slightly biased (C13, C70), so uniform entries are an idealisation. The string itself is visible in the key (C07)."},
{"property": "C91", "status": "partial", "theorems": ["Mastic.C91_false_accepted", "Mastic.C91_false_one_copy", "Mastic.C91_false_run", "Mastic.C91_same_partial"], "note": "False of the code. C91_false_accepted: if the second elements of the two servers' joint randomness differ, every vector is accepted at every query point that is no root of unity, with proof shares independent of the verify key. C91_false_one_copy: one replaced part suffices. C91_false_run: whole runs print the sums. C91_same_partial: with equal joint randomness the bound of C82 holds; missing is that nothing makes it equal."},
{"property": "C92", "status": "proved", "theorems": ["Mastic.C92_script", "Mastic.C92_unique", "Mastic.C92_weights", "Mastic.C92_reveals", "Mastic.C92_abm"], "note": "Spec.Talk is a conversation of the driver process with two servers that answer each request; Spec.whhScript lists the requests as a function of the strings. Covers the requests after the upload of runs that complete; the uploaded shares are the subject of C90, the answers go to the driver only. Plain metrics forwards the other server's prep shares, see C89."},
{"property": "C93", "status": "proved", "theorems": ["Mastic.C93_weighted_heavy_hitters", "Mastic.C93_attribute_based_metrics"], "note": "Composition of C90 over all reports with the run theorems C81/C62 and the conversation model of C92. FreshRun says that the cipher inputs behind the hidden values are used once and for nothing else, by any report (true up to collisions among 128-bit blocks). A server's own answers are computed from what it received, so they are covered. Strings and which client picked which report stay fixed: they are visible in the keys (C07, C90)."},
{"property": "C94", "status": "proved", "theorems": ["Mastic.C94_leader", "Mastic.C94_helper"], "note": "Composition of C89 over all reports with the run theorem C85 and the conversation model of C92. FreshSeeds says that no two generated reports have the same seed for the same purpose (true up to collisions of 128-bit seeds). As in C89 uniformity of the answers on unknown seeds is the usual idealisation and not part of the theorem."},
{"property": "C95", "status": "proved", "theorems": ["Mastic.C95_aggregates", "Mastic.C95_exact", "Mastic.C95_light"], "note": "The answers of the other server are computed, not assumed: its values are total minus the known server's values (evaluation of the known server's keys in both worlds agrees by FreshEvals), its verifiers follow from the proof-splitting and prover randomness, its digests are equal to the known server's (C02). C95_exact is the converse; C95_light a concrete run in which the printed results agree and the answers differ in the weight of a client that is no heavy hitter. FreshRun and FreshEvals exclude collisions of cipher inputs; the example is a run with two clients and swapped weights. Strings stay fixed, as in C93."},
{"property": "C96", "status": "proved", "theorems": ["Mastic.C96_leader", "Mastic.C96_helper"], "note": "Hears adds the answers of both servers to the run of C94. The other server's preparation share follows from the joint-randomness parts, from the verifier of an honest report being shared additively, and from the prover randomness; its aggregate share is the histogram minus the known server's share. That equal results are necessary is immediate, since the collector prints them, and is not stated separately. FreshSeeds as in C94. The histograms are printed per batch, so what is learned is the histogram of each batch and not only the total."},
{"property": "C97", "status": "proved", "theorems": ["Mastic.C97_aggregates", "Mastic.C97_outside"], "note": "C97_aggregates is the general statement, C97_outside the case of weights that differ only at clients outside the attributes. Unlike in C95 the answers contain nothing beyond the printed result, because the servers cut the counter off before summing and evaluate at the attributes only. FreshRun and FreshEvals exclude collisions of cipher inputs; the paths in FreshEvals are the one-bit strings and the siblings along the attributes, since eval_tree evaluates both children of every inner node. Strings stay fixed, as in C93. Two concrete runs are given."},
{"property": "C98", "status": "partial", "theorems": ["Mastic.C98_false_isolate", "Mastic.C98_false_everyone", "Mastic.C98_printed_partial", "Mastic.C98_false_batch"], "note": "False of the code. C98_false_isolate: the servers know neither the threshold nor who decides exclusions, so apply_flp_results that leaves out everybody but client i, followed by a crawl with threshold one, gives the string and weight of client i. C98_false_everyone: crawling, leaving out one more client and starting a new tree with tree_init, repeatedly, gives all strings and weights (the answers determine them). C98_false_batch: plain metrics with the driver's own requests prints the weight of a client that is alone in its batch. C98_printed_partial: what the driver prints in weighted heavy hitters are totals over at least max 1 threshold clients with that string; what its own requests reveal beyond that is C95."},
{"property": "C99", "status": "partial", "theorems": ["Mastic.C99_false", "Mastic.C99_false_one", "Mastic.C99_false_all", "Mastic.C99_plain_partial", "Mastic.C99_plain_leader_partial", "Mastic.C99_plain_helper_partial", "Mastic.C99_abm_partial", "Mastic.C99_plain_leader_same_partial", "Mastic.C99_plain_helper_same_partial", "Mastic.C99_whh_partial"], "note": "False of the code. C99_false: either server adds max 1 threshold - 1 to the counters that it reports and spoils its FLP verifier shares of the clients that it does not want; the driver and the other server carry on, the lying server's requests are the script of the run over the wanted clients with threshold one (by C92 they name every prefix of every wanted string), and the driver ends with the wanted clients' strings and weights. C99_false_one: one client alone; C99_false_all: everybody. The hypothesis that a verifier with another first entry is refused holds for libprio's histogram (histogram_firstMatters). C99_plain_partial: in a whole plain-metrics run, whatever the server answers, its requests are a beginning of those of the honest run; C99_plain_leader_partial and C99_plain_helper_partial combine this with C94: for any two choices of buckets they are beginnings of one list. C99_plain_leader_same_partial and C99_plain_helper_same_partial are exact: whatever the server answers, including how early the run ends, its requests are the same list in two runs with any two choices of buckets and corresponding coins. C99_abm_partial says the same of attribute-based metrics for either server and any two assignments of weights. C99_whh_partial: in weighted heavy hitters, whatever the server answers, its requests are the same list in two runs with any two assignments of weights to the same strings and corresponding coins, so its lies can reveal strings but nothing about the weights. Missing: an upper bound on what the lying server learns about the strings of the clients in heavy hitters; the negation shows that it can learn all of them."},
{"property": "C100", "status": "proved", "theorems": ["Mastic.C100_bound", "Mastic.C100_metrics_exact", "Mastic.C100_servers", "Mastic.C100_tight"], "note": "C100_bound: upper bound for every strategy of both servers (Spec.dialogue) and lower bound for runs that end, all modes, whole main. C100_metrics_exact: the exact number in the two metrics modes. C100_servers: the same for conversations with servers that run the code. C100_tight: servers that always disagree reach the bound. Batch sizes from 1; with data_bits = 0 a release build would start 2^64 - 1 levels (C84)."},
{"property": "C101", "status": "partial", "theorems": ["Mastic.C101_honest_partial", "Mastic.C101_false"], "note": "False of the code. C101_false: one client whose root seeds are equal makes both servers keep all 2^d strings at the end of a completed run in which nobody is excluded (the report of C73). C101_honest_partial: with honest clients and clients that the FLP verification rejects, in every pruning request at most N / max 1 T prefixes are kept and at most twice as many (or two) crawled. Missing: clients that pass the verification with keys that are not honest."},
{"property": "C102", "status": "partial", "theorems": ["Mastic.C102_false", "Mastic.C102_false_any", "Mastic.C102_false_abm", "Mastic.C102_false_plain", "Mastic.C102_strings_partial", "Mastic.C102_whole_partial", "Mastic.C102_attributes_partial"], "note": "False of the code in all three modes. C102_false: a server that knows the clients' strings has one strategy, fixed before the weights, with which the driver ends with any list of strings it chooses and the true values of these strings plus whatever it adds. C102_false_any: if it knows the weights too, every non-empty list of distinct strings in tree order with values of the right length and counters that are not zero is the result of some strategy. C102_false_abm, C102_false_plain: for whole runs, adding tables (vectors) to its aggregates makes the driver show the honest result plus these, with the same requests as in the honest run and knowing nothing but its own state. What does hold whatever the server answers and whatever the reports are: C102_strings_partial and C102_whole_partial (the result is such a list, so with C102_false_any nothing more holds for non-empty results), C102_attributes_partial (the attributes shown and the number of batches are the driver's). Missing: nothing that is true of the code, except for the shape of the tables in the metrics modes."},
{"property": "C103", "status": "partial", "theorems": ["Mastic.C103_false_strings", "Mastic.C103_false_weights", "Mastic.C103_false_buckets", "Mastic.C103_whh_partial", "Mastic.C103_abm_partial", "Mastic.C103_leader_partial", "Mastic.C103_helper_partial"], "note": "False of the code: the connections are plain TCP with bincode. C103_false_strings: one fixed function that knows no keys and no primitives reads the strings of all clients from the messages to either server, for all configurations, random values, misbehaving clients and answers of the servers. C103_false_weights, C103_false_buckets: from both connections the weights (buckets) of all clients follow with public functions only. What does hold: one connection, read in both directions, is the same for corresponding values of what the reader does not know for any two assignments of weights with the same totals at the evaluated prefixes (C103_whh_partial), with the same printed result in attribute-based metrics (C103_abm_partial) and in plain metrics (C103_leader_partial, C103_helper_partial). Missing: the tarpc header of the messages is not modelled."},
{"property": "C104", "status": "partial", "theorems": ["Mastic.C104_same_partial", "Mastic.C104_false_builds", "Mastic.C104_false_builds_run", "Mastic.C104_false_numbers", "Mastic.C104_false_numbers_run"], "note": "False of the code in attribute-based metrics. C104_false_builds, C104_false_builds_run: with a debug server 0 and a release server 1, and everything else right, the run ends normally and every printed histogram is the right one plus the value table that server 1 holds for each client printed as rejected. C104_false_numbers, C104_false_numbers_run: debug servers with numbers under which the FLP refuses honest reports (exchanged addresses in one file) give a run that ends normally and prints zeros. What holds (C104_same_partial): for all reports, any two runs that end normally with the same server numbers, but other numbers of bits, builds, hash orders, states before and driver builds, sent the same requests and show the same; in attribute-based metrics the servers' builds have to be the same."},
{"property": "C105", "status": "proved", "theorems": ["Mastic.C105_attributes", "Mastic.C105_heavy_plain", "Mastic.C105_attributes_plain"], "note": "C105_attributes relates a run of weighted heavy hitters with one of attribute-based metrics, C105_heavy_plain and C105_attributes_plain relate each of them with a run of plain metrics with libprio's Prio3. The runs share nothing but the clients' strings and weights, up to order. Clients that fail the FLP are allowed in the heavy-hitters run (they are left out); the metrics runs are without tampering, since with it the printed histograms depend on the builds (C43, C63)."},
{"property": "C106", "status": "proved", "theorems": ["Mastic.C106_whh", "Mastic.C106_abm", "Mastic.C106_pm", "Mastic.C106_reveals", "Mastic.C106_same", "Mastic.C106_reveals_attributes"], "note": "C106_whh, C106_abm and C106_pm give the exact list of lengths (request and answer of every call, without tarpc's header) from the numbers in the configuration; C106_reveals and C106_reveals_attributes say what these lists determine, C106_same is the equivalence for two heavy-hitters runs. The runs are without changed proofs; heavy hitters needs a heavy prefix of length d - 2, without which the run ends earlier (C61). The lengths of libprio's proofs and verifiers are those of C81_lengths. Timing and the framing of tarpc and TLS are not modelled."},
{"property": "C107", "status": "proved", "theorems": ["Mastic.C107_exact", "Mastic.C107_false_poisons", "Mastic.C107_false_upload", "Mastic.C107_false_crawl", "Mastic.C107_reads"], "note": "C107_exact is the equivalence; C107_false_poisons, C107_false_upload and C107_false_crawl say what happens otherwise; C107_reads: queries do not change the state. tarpc does not repeat requests by itself; a driver or a network in between may."},
{"property": "C108", "status": "partial", "theorems": ["Mastic.C108_small_partial", "Mastic.C108_nearest_partial", "Mastic.C108_false", "Mastic.C108_false_any", "Mastic.C108_false_unchecked", "Mastic.C108_false_cheaters"], "note": "False of the code: C108_false (correctly rounded logarithm, just above every power of two from 2^21 on) and C108_false_any (any logarithm that is exact where it can be, from 2^24 on) give the wrong number of leaves; C108_false_unchecked and C108_false_cheaters: the clients that the tree misses may cheat unnoticed at that level. Up to 2^20 clients (2^21 if correctly rounded) the number is right: C108_small_partial, C108_nearest_partial; this is the hypothesis of C30-C33 and C61. Conversion to f32 and the set of f32 values are exact; the platform's log2f is a parameter."},
{"property": "C109", "status": "partial", "theorems": ["Mastic.C109_read", "Mastic.C109_shortest_partial", "Mastic.C109_false_unique", "Mastic.C109_frames", "Mastic.C109_memory"], "note": "The last clause is false of the code: C109_false_unique (both integer encodings, every upload with a nonempty proof, as many bytes more as one likes, because libprio's conversion from bytes does not look behind the first 16, as described in Model/Wire). Everything else is proved: C109_read, C109_shortest_partial, C109_frames, C109_memory. tarpc's frame header is left out."},
{"property": "C110", "status": "proved", "theorems": ["Mastic.C110_collect", "Mastic.C110_collect_panics", "Mastic.C110_groups", "Mastic.C110_dpf", "Mastic.C110_tree", "Mastic.C110_flp", "Mastic.C110_histograms"], "note": "C110_collect, C110_collect_panics, C110_groups (the literal test), C110_dpf (1 to 31 bits), C110_tree, C110_flp and C110_histograms (libprio's proof system as modelled in Model/Libprio, chunk length 2). What the tests only print is left out."},
{"property": "C111", "status": "proved", "theorems": ["Mastic.C111_enough", "Mastic.C111_panics", "Mastic.C111_exact", "Mastic.C111_fraction", "Mastic.C111_shipped", "Mastic.C111_artifact"], "note": "C111_enough, C111_panics, C111_exact (in terms of the threshold in counts), C111_fraction (threshold as a fraction in a file), C111_shipped (src/configs/weighted-heavy-hitters.toml) and C111_artifact (the 17 weighted-heavy-hitters files of artifact/configs: exactly the numbers of clients below 200 are safe). The files are transcribed in Model/Configs. C111_exact quantifies over strings and choices of reports of honest clients."},
{"property": "C112", "status": "proved", "theorems": ["Mastic.C112_whh", "Mastic.C112_abm", "Mastic.C112_pm", "Mastic.C112_shipped_whh", "Mastic.C112_shipped_abm", "Mastic.C112_shipped_pm", "Mastic.C112_tampered", "Mastic.C112_any", "Mastic.C112_iff"], "note": "C112_whh, C112_abm, C112_pm (any configuration, any two connections) and C112_shipped_whh, C112_shipped_abm, C112_shipped_pm (the files in src/configs with tokio's limit of 8 MiB and at most 1000 bytes added per message by tarpc). Clients do not tamper there; C112_tampered has weighted heavy hitters with any tampering clients, in terms of the messages instead of a formula for their lengths. The hypotheses on the lengths of proofs and verifiers hold for libprio's histograms (shipped_lengths). C112_any: every run of every mode that ends on values, whatever the clients. C112_iff: over the connections a run ends exactly if it ends on values and all its messages fit, whatever the mode and the clients."},
{"property": "C113", "status": "partial", "theorems": ["Mastic.C113_pm", "Mastic.C113_abm", "Mastic.C113_whh_partial", "Mastic.C113_whh_not", "Mastic.C113_shipped_whh", "Mastic.C113_crash_pm", "Mastic.C113_crash_abm", "Mastic.C113_crash_whh", "Mastic.C113_prio", "Mastic.C113_artifact", "Mastic.C113_tampered_not"], "note": "Proved for attribute-based metrics (C113_abm) and plain metrics (C113_pm), for any number of clients. False of weighted heavy hitters: the verdicts about all clients are one message, so from 8388604 clients on every choice of batch sizes panics (C113_whh_not). C113_whh_partial has the claim for up to 8387500 clients and thresholds for which the heavy prefixes fit into a frame; C113_shipped_whh is both directions for src/configs/weighted-heavy-hitters.toml, for any strings. Clients do not tamper, except in C113_tampered_not, which is C113_whh_not for any clients. C113_crash_pm, C113_crash_abm, C113_crash_whh: the condition on the batches is necessary up to the few bytes tarpc adds. C113_prio: the Prio files of figure 6 with 128 and 1024 attributes end with up to 2287 and 815 clients and panic with more. C113_artifact: both directions for the 17 weighted-heavy-hitters files of the artifact, with libprio's histograms."},
{"property": "C114", "status": "proved", "theorems": ["Mastic.C114_any", "Mastic.C114_runs", "Mastic.C114_whh", "Mastic.C114_abm", "Mastic.C114_pm", "Mastic.C114_poisoned", "Mastic.C114_shipped_whh"], "note": "C114_any for every run that ends on values; C114_whh, C114_abm, C114_pm without the hypothesis that numbers are below 2^64 (proved there); C114_shipped_whh is the README's advice; C114_poisoned the contrast. At the call that fails, either server may or may not have handled its request (NetLeft); a request left behind that is handled only during the next run is the subject of C76."}
]}
