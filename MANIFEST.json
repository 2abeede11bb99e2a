{
 "claims": [
  {
   "property": "C01",
   "status": "proved",
   "theorems": [
    "Verif.C01_roundtrip",
    "Verif.C01_parse",
    "Verif.C01_evaluate_num",
    "Verif.C01_evaluate_str",
    "Verif.C01_evaluate_mixed",
    "Verif.C01_match",
    "Verif.C01_order"
   ],
   "note": "Full."
  },
  {
   "property": "C02",
   "status": "proved",
   "theorems": [
    "Verif.C02_exact",
    "Verif.C02_illegal_refused",
    "Verif.C02_noCollision",
    "Verif.C02_fails"
   ],
   "note": "Exact condition proved for all histories (C02_exact). The claim without a condition is false (C02_fails: pool key collision). C02_noCollision: it holds when no attribute name contains a quote, or none contains a blank."
  },
  {
   "property": "C03",
   "status": "proved",
   "theorems": [
    "Verif.C03_exact",
    "Verif.C03_sameKind",
    "Verif.C03_fails"
   ],
   "note": "Exact condition (C03_exact); C03_fails is the int/float witness."
  },
  {
   "property": "C04",
   "status": "proved",
   "theorems": [
    "Verif.C04_exact",
    "Verif.C04_homogeneous",
    "Verif.C04_all",
    "Verif.C04_fails"
   ],
   "note": "Exact condition on the columns (C04_exact); C04_fails is a 3-cycle outside it; the laws that hold for all selectors are in C04_all."
  },
  {
   "property": "C05",
   "status": "proved",
   "theorems": [
    "Verif.C05_iff",
    "Verif.C05_exact",
    "Verif.C05_fails"
   ],
   "note": "Exact condition (C05_iff, C05_exact); C05_fails outside it."
  },
  {
   "property": "C06",
   "status": "proved",
   "theorems": [
    "Verif.C06_exact",
    "Verif.C06_homogeneous",
    "Verif.C06_provenance",
    "Verif.C06_index",
    "Verif.C06_fails",
    "Verif.C06_any_sort",
    "Verif.C06_sort_exists"
   ],
   "note": "Exact condition on the columns (C06_exact); C06_fails outside it."
  },
  {
   "property": "C07",
   "status": "proved",
   "theorems": [
    "Verif.C07_exact",
    "Verif.C07_contains",
    "Verif.C07_eq",
    "Verif.C07_constructor",
    "Verif.C07_fails"
   ],
   "note": "Exact condition on the columns (C07_exact), as a refinement of an abstract set; C07_fails outside it."
  },
  {
   "property": "C08",
   "status": "proved",
   "theorems": [
    "Verif.C08_exact",
    "Verif.C08_coverage",
    "Verif.C08_empty",
    "Verif.C08_total",
    "Verif.C08_errors",
    "Verif.C08_keyError",
    "Verif.C08_fails",
    "Verif.C08_filterRows"
   ],
   "note": "Coverage, empty pattern and totality in full; C08_exact says exactly when each exception is raised; C08_fails shows a missing attribute that is not reported."
  },
  {
   "property": "C09",
   "status": "proved",
   "theorems": [
    "Verif.C09_refinement",
    "Verif.C09_transitive",
    "Verif.C09_antisymmetric",
    "Verif.C09_reflexive",
    "Verif.C09_subgroup"
   ],
   "note": "Full, for all patterns (sets of selectors compared as Python sets)."
  },
  {
   "property": "C10",
   "status": "proved",
   "theorems": [
    "Verif.C10_antitone"
   ],
   "note": "Full."
  },
  {
   "property": "C11",
   "status": "proved",
   "theorems": [
    "Verif.C11_pattern_exact",
    "Verif.C11_subgroup_exact",
    "Verif.C11_pattern_safe",
    "Verif.C11_subgroup_safe",
    "Verif.C11_fails"
   ],
   "note": "Exact conditions (C11_pattern_exact, C11_subgroup_exact) for patterns with homogeneous history; C11_fails outside them."
  },
  {
   "property": "C12",
   "status": "proved",
   "theorems": [
    "Verif.C12_filter",
    "Verif.C12_total"
   ],
   "note": "Full."
  },
  {
   "property": "C13",
   "status": "proved",
   "theorems": [
    "Verif.C13_ranges"
   ],
   "note": "Full (exact rational arithmetic; Qg for non-negative g)."
  },
  {
   "property": "C14",
   "status": "proved",
   "theorems": [
    "Verif.C14_youden",
    "Verif.C14_irr",
    "Verif.C14_f1",
    "Verif.C14_support",
    "Verif.C14_wracc",
    "Verif.C14_piatetskyShapiro",
    "Verif.C14_absolute"
   ],
   "note": "Full (exact rational arithmetic), including when each side is defined."
  },
  {
   "property": "C15",
   "status": "proved",
   "theorems": [
    "Verif.C15_value",
    "Verif.C15_missing",
    "Verif.C15_only_needed"
   ],
   "note": "Full for the 16 rational-valued measures: error cases characterised by iff, value equal to the textbook formula."
  },
  {
   "property": "C16",
   "status": "proved",
   "theorems": [
    "Verif.C16_bound",
    "Verif.C16_data",
    "Verif.C16_monotone",
    "Verif.C16_wraccOE1_not_monotone"
   ],
   "note": "Full, on counts and on data frames. Also: the Piatetsky-Shapiro estimates are monotone, WRAccOptimisticEstimate1 is not."
  },
  {
   "property": "C17",
   "status": "proved",
   "theorems": [
    "Verif.C17_fails",
    "Verif.C17_bound",
    "Verif.C17_exact"
   ],
   "note": "C17_exact: the estimate is a bound exactly when the subgroup has no positives. C17_bound: the bound up to the normalising factor."
  },
  {
   "property": "C18",
   "status": "proved",
   "theorems": [
    "Verif.C18_header",
    "Verif.C18_frequent_selectors",
    "Verif.C18_nodes",
    "Verif.C18_sums",
    "Verif.C18_no_quotes",
    "Verif.C18_fails"
   ],
   "note": "Proved for faithful keys (always when no column name has a quote, C18_no_quotes); C18_fails shows that a key collision gives wrong counters otherwise."
  },
  {
   "property": "C19",
   "status": "proved",
   "theorems": [
    "Verif.C19_counts",
    "Verif.C19_remaining"
   ],
   "note": "At every recursion depth; same condition on keys as C18."
  },
  {
   "property": "C20",
   "status": "proved",
   "theorems": [
    "Verif.C20_agree",
    "Verif.C20_exact_sets",
    "Verif.C20_exact_bits",
    "Verif.C20_none"
   ],
   "note": "Full: simulation between the two implementations for every program of constructors and joins, exactness of both."
  },
  {
   "property": "C21",
   "status": "proved",
   "theorems": [
    "Verif.C21_stack",
    "Verif.C21_partition",
    "Verif.C21_counts",
    "Verif.C21_getters",
    "Verif.C21_dataset"
   ],
   "note": "Full, for every history: refinement of an abstract stack, exactly-one-owner partition, and counts."
  },
  {
   "property": "C22",
   "status": "proved",
   "theorems": [
    "Verif.C22_undo",
    "Verif.C22_determined",
    "Verif.C22_add_total"
   ],
   "note": "Full, for every history."
  },
  {
   "property": "C23",
   "status": "proved",
   "theorems": [
    "Verif.C23_evaluated",
    "Verif.C23_written",
    "Verif.C23_nothing",
    "Verif.C23_refused"
   ],
   "note": "Same condition on keys as C18. Exact characterisation (iff) of the lines of the file."
  },
  {
   "property": "C24",
   "status": "proved",
   "theorems": [
    "Verif.C24",
    "Verif.C24_total"
   ],
   "note": "Same condition on keys as C18. Includes that fit succeeds when the measure is defined."
  },
  {
   "property": "C25",
   "status": "proved",
   "theorems": [
    "Verif.C25_once",
    "Verif.C25_selected"
   ],
   "note": "Same condition on keys as C18."
  },
  {
   "property": "C26",
   "status": "proved",
   "theorems": [
    "Verif.C26"
   ],
   "note": "Proved: same success, same descriptions with the same counts, same lines and counters (up to order)."
  },
  {
   "property": "C27",
   "status": "proved",
   "theorems": [
    "Verif.C27_updates",
    "Verif.C27_fit"
   ],
   "note": "Proved for every sequence of updates and for every fit on a fresh object."
  },
  {
   "property": "C28",
   "status": "partial",
   "theorems": [
    "Verif.C28_sound_partial",
    "Verif.C28_unpruned_partial",
    "Verif.C28_valid_estimates",
    "Verif.C28_wrong_counts",
    "Verif.C28_loses_the_best",
    "Verif.C28_singles_partial",
    "Verif.C28_never_full_loses",
    "Verif.C28_never_full_counts"
   ],
   "note": "The claim is false: C28_wrong_counts and C28_loses_the_best are kernel-checked counterexamples with a valid estimate (nodes of a horizontal list are skipped one by one when their own estimate is below the bound); C28_never_full_loses and C28_never_full_counts show that it fails even if num_subgroups (1000) exceeds the number of all descriptions (19). Proved instead: reported counts never exceed the exact ones (all runs); lines with one selector are exact and such descriptions are only left out when k better qualities were seen (all runs); exactness plus top-k completeness whenever conditional_pruned_branches stays unchanged."
  },
  {
   "property": "C29",
   "status": "proved",
   "theorems": [
    "Verif.C29_bitset_lengths",
    "Verif.C29_sets",
    "Verif.C29_bitsets",
    "Verif.C29_total_sets",
    "Verif.C29_total_bitsets"
   ],
   "note": "both implementations (sets, bitsets), any sort criteria, any estimate that reads its dictionary by key (every library measure does); data frames with distinct columns of text and all values str"
  },
  {
   "property": "C30",
   "status": "proved",
   "theorems": [
    "Verif.C30_complete",
    "Verif.C30_antitone",
    "Verif.C30_bound",
    "Verif.C30_file",
    "Verif.C30_library",
    "Verif.C30_not_antitone"
   ],
   "note": "C30_complete is the strongest form (all sub-descriptions reach the threshold); C30_antitone/C30_file the exact characterisation for antitone estimates; C30_library: both Piatetsky-Shapiro estimates are antitone; C30_not_antitone shows the condition is needed (WRAcc estimate)"
  },
  {
   "property": "C31",
   "status": "proved",
   "theorems": [
    "Verif.C31_history",
    "Verif.C31_fit"
   ],
   "note": "any history of candidates and one fit of a new object; the fit theorem needs unambiguous selector texts and qualities above -99999 (the code's dummy)"
  },
  {
   "property": "C32",
   "status": "proved",
   "theorems": [
    "Verif.C32_history",
    "Verif.C32_fit"
   ],
   "note": ""
  },
  {
   "property": "C33",
   "status": "proved",
   "theorems": [
    "Verif.C33_runs",
    "Verif.C33_fails",
    "Verif.C33_zero"
   ],
   "note": "C33_fails and C33_zero show the failing cases (no negative row for BSD; num_subgroups = 0)"
  },
  {
   "property": "C34",
   "status": "proved",
   "theorems": [
    "Verif.C34_frequent",
    "Verif.C34_bits",
    "Verif.C34_exact"
   ],
   "note": "texts of selectors must be unambiguous, as BitsetDictionary is keyed by text"
  },
  {
   "property": "C35",
   "status": "proved",
   "theorems": [
    "Verif.C35_idsd",
    "Verif.C35_idsd_fails",
    "Verif.C35_sdmap",
    "Verif.C35_sdmapstar",
    "Verif.C35_vlsd",
    "Verif.C35_bsd_fails",
    "Verif.C35_sdmapstar_fails"
   ],
   "note": "positive theorems for SDMap, SDMapStar without limit, VLSD and IDSD; C35_bsd_fails, C35_sdmapstar_fails and C35_idsd_fails are witnesses of the dependence on earlier fits"
  },
  {
   "property": "C36",
   "status": "proved",
   "theorems": [
    "Verif.C36_size_sorted",
    "Verif.C36_exact",
    "Verif.C36_refinement",
    "Verif.C36_best",
    "Verif.C36_redundant_fails"
   ],
   "note": "parametric in the p-value function; C36_redundant_fails is the witness of a kept redundant pair"
  },
  {
   "property": "C37",
   "status": "proved",
   "theorems": [
    "Verif.C37_rank",
    "Verif.C37_rank_monotone",
    "Verif.C37_early_exit",
    "Verif.C37_qfinder_rank",
    "Verif.C37_qfinder_rank_monotone",
    "Verif.C37_qfinder_rank_of"
   ],
   "note": "IDSD: C37_rank, C37_rank_monotone, C37_early_exit; QFinder: C37_qfinder_rank, C37_qfinder_rank_monotone."
  },
  {
   "property": "C38",
   "status": "proved",
   "theorems": [
    "Verif.C38_selection",
    "Verif.C38_zero",
    "Verif.C38_negative",
    "Verif.C38_unselected",
    "Verif.C38_replace_fails"
   ],
   "note": "Regression results are arbitrary functions of the two columns; p-values are numbers, texts of the selectors can be read back (SafeTexts). C38_replace_fails: the list is changed while it is iterated over."
  },
  {
   "property": "C39",
   "status": "proved",
   "theorems": [
    "Verif.C39_idsd",
    "Verif.C39_qfinder"
   ],
   "note": "IDSD: searched data = data after grouping of the values (C58). QFinder: texts of the selectors can be read back (SafeTexts), as the patterns are read from their texts."
  },
  {
   "property": "C40",
   "status": "proved",
   "theorems": [
    "Verif.C40_gmsl",
    "Verif.C40_psld_dslm",
    "Verif.C40_total",
    "Verif.C40_refused",
    "Verif.C40_duplicate_lines"
   ],
   "note": "Full for the candidates loaded; the loops are shown to end (the fuel of the model is enough) and to raise nothing when the candidates fit the data."
  },
  {
   "property": "C41",
   "status": "proved",
   "theorems": [
    "Verif.C41_gmsl",
    "Verif.C41_psld",
    "Verif.C41_dslm",
    "Verif.C41_new_positives",
    "Verif.C41_new_rows",
    "Verif.C41_one_class"
   ],
   "note": "Full. Gains over the reals (nan and infinities included); the code lengths used are those of C46."
  },
  {
   "property": "C42",
   "status": "proved",
   "theorems": [
    "Verif.C42_factor_range",
    "Verif.C42_factor_meaning",
    "Verif.C42_limit"
   ],
   "note": "Full."
  },
  {
   "property": "C43",
   "status": "proved",
   "theorems": [
    "Verif.C43_results"
   ],
   "note": "All possible random choices; termination as: any fuel above the number of rules gives the same final state."
  },
  {
   "property": "C44",
   "status": "proved",
   "theorems": [
    "Verif.C44_local_search"
   ],
   "note": ""
  },
  {
   "property": "C45",
   "status": "proved",
   "theorems": [
    "Verif.C45_dictionary",
    "Verif.C45_filter",
    "Verif.C45_split",
    "Verif.C45_exactly_one",
    "Verif.C45_fitness_attribute_fails"
   ],
   "note": "Attribute names other than fitness, at most 65535 values per attribute; C45_fitness_attribute_fails is the witness for the first condition."
  },
  {
   "property": "C46",
   "status": "proved",
   "theorems": [
    "Verif.MDL.C46_universal_code",
    "Verif.MDL.C46_universal_code_strictMono",
    "Verif.MDL.C46_code_with_maximum",
    "Verif.MDL.C46_multinomial",
    "Verif.MDL.C46_complexityTwo",
    "Verif.MDL.C46_universalCode",
    "Verif.MDL.C46_multinomial_recurrence",
    "Verif.MDL.C46_multinomial_conventions",
    "Verif.MDL.C46_kraft"
   ],
   "note": "All functions of mdl.py over the reals. C46_kraft: the Kraft equality for every maximum up to 2^(2^65536), by comparing the sum of the probabilities with integrals; beyond that it depends on the decimals of the constant 2.865064 (C46_code_with_maximum gives it whenever the codes of 1..max leave a non-negative probability)."
  },
  {
   "property": "C47",
   "status": "proved",
   "theorems": [
    "Verif.C47_odds_ratio",
    "Verif.C47_odds_all_or_none",
    "Verif.C47_odds_one_class",
    "Verif.C47_odds_nonneg",
    "Verif.C47_odds_above_one",
    "Verif.C47_odds_from_rows",
    "Verif.C47_odds_missing",
    "Verif.C47_odds_mixed_fails",
    "Verif.C47_p_value_range",
    "Verif.C47_p_value_all_or_none",
    "Verif.C47_p_value_defined",
    "Verif.C47_p_value_one",
    "Verif.C47_p_value_antitone",
    "Verif.C47_p_value_missing"
   ],
   "note": "C47_odds_mixed_fails records a KeyError for a partly filled dictionary; with numpy integers the zero division of the p-value is a nan instead."
  },
  {
   "property": "C48",
   "status": "proved",
   "theorems": [
    "Verif.C48_contribution",
    "Verif.C48_threshold",
    "Verif.C48_short",
    "Verif.C48_infinite_fails",
    "Verif.C48_errors",
    "Verif.C48_table_errors",
    "Verif.C48_from_appearances"
   ],
   "note": "C48_infinite_fails is the witness for infinite odds ratios."
  },
  {
   "property": "C49",
   "status": "proved",
   "theorems": [
    "Verif.C49_transform",
    "Verif.C49_deterministic",
    "Verif.C49_vlsd",
    "Verif.C49_without_bitsets",
    "Verif.C49_newlines",
    "Verif.C49_line_end_fails"
   ],
   "note": "File contents are texts, read with universal newlines and written with line feeds; names of measures and float texts are parameters without semicolons and line ends."
  },
  {
   "property": "C50",
   "status": "proved",
   "theorems": [
    "Verif.C50"
   ],
   "note": "Full."
  },
  {
   "property": "C51",
   "status": "proved",
   "theorems": [
    "Verif.C51_exact",
    "Verif.C51_stored",
    "Verif.C51_add",
    "Verif.C51_parent",
    "Verif.C51_fails"
   ],
   "note": "C51_exact characterises both sides of a link for every history by the log of successful calls; C51_fails: a node added to two parents; C51_parent: agreement when only parentless nodes are added."
  },
  {
   "property": "C52",
   "status": "proved",
   "theorems": [
    "Verif.C52_constructors",
    "Verif.C52_caller_unchanged",
    "Verif.C52_no_alias",
    "Verif.C52_counts_exact",
    "Verif.C52_quality",
    "Verif.C52_others_pass"
   ],
   "note": "Full, in a heap model of dictionaries."
  },
  {
   "property": "C53",
   "status": "proved",
   "theorems": [
    "Verif.C53_best",
    "Verif.C53_library",
    "Verif.C53_only_the_best"
   ],
   "note": "C53_library discharges the conditions for WRAcc and Piatetsky-Shapiro; C53_only_the_best: the second best may be lost"
  },
  {
   "property": "C54",
   "status": "proved",
   "theorems": [
    "Verif.C54_history",
    "Verif.C54_fit"
   ],
   "note": ""
  },
  {
   "property": "C55",
   "status": "proved",
   "theorems": [
    "Verif.C55_eq",
    "Verif.C55_ne",
    "Verif.C55_equivalence"
   ],
   "note": ""
  },
  {
   "property": "C56",
   "status": "proved",
   "theorems": [
    "Verif.C56_single_path",
    "Verif.C56_is_empty"
   ],
   "note": ""
  },
  {
   "property": "C57",
   "status": "proved",
   "theorems": [
    "Verif.C57_thresholds"
   ],
   "note": ""
  },
  {
   "property": "C58",
   "status": "proved",
   "theorems": [
    "Verif.C58_column",
    "Verif.C58_frame",
    "Verif.C58_any_order"
   ],
   "note": ""
  },
  {
   "property": "C59",
   "status": "proved",
   "theorems": [
    "Verif.C59_counters"
   ],
   "note": ""
  },
  {
   "property": "C60",
   "status": "proved",
   "theorems": [
    "Verif.C60_test",
    "Verif.C60_files",
    "Verif.C60_same_data_fails"
   ],
   "note": "Same hypotheses as C38. C60_same_data_fails: KeyError on the data of fit."
  },
  {
   "property": "C61",
   "status": "proved",
   "theorems": [
    "Verif.C61_load",
    "Verif.C61_trap",
    "Verif.C61_deterministic",
    "Verif.C61_lengths",
    "Verif.C61_comma_fails",
    "Verif.C61_from_vlsd",
    "Verif.C61_from_vlsd_to_lists"
   ],
   "note": "Candidates from a file; the log text is modelled completely. The exact failure condition (attribute name ending with a comma) is part of the statement."
  },
  {
   "property": "C62",
   "status": "proved",
   "theorems": [
    "Verif.C62_counters_and_file"
   ],
   "note": "Fitness over exact rationals."
  },
  {
   "property": "C63",
   "status": "proved",
   "theorems": [
    "Verif.C63_as_fit_as_the_population",
    "Verif.C63_crossover",
    "Verif.C63_mutation",
    "Verif.C63_generation"
   ],
   "note": ""
  },
  {
   "property": "C64",
   "status": "proved",
   "theorems": [
    "Verif.C64_constructor",
    "Verif.C64_rejects",
    "Verif.C64_population_of_one",
    "Verif.C64_zero_weights",
    "Verif.C64_one_attribute"
   ],
   "note": "Types of the arguments: C86."
  },
  {
   "property": "C65",
   "status": "proved",
   "theorems": [
    "Verif.C65_estimate",
    "Verif.C65_no_estimate",
    "Verif.C65_odds",
    "Verif.C65_not_the_odds_ratio",
    "Verif.C65_p_value",
    "Verif.C65_parameters",
    "Verif.C65_qfinder"
   ],
   "note": "The fitting iteration of statsmodels is a parameter assumed to return a maximiser of the likelihood (shown to exist by exists_fitsML) and its Wald p-value; everything else is proved."
  },
  {
   "property": "C66",
   "status": "proved",
   "theorems": [
    "Verif.C66_text",
    "Verif.C66_sums",
    "Verif.C66_readable",
    "Verif.C66_file",
    "Verif.C66_total",
    "Verif.C66_from_vlsd"
   ],
   "note": "Gains over reals; the lists are written when all are complete (model), what is in the file after an exception is not modelled. C66_from_vlsd composes VLSD, transformation, loading and printing."
  },
  {
   "property": "C67",
   "status": "proved",
   "theorems": [
    "Verif.C67_names",
    "Verif.C67_accepted",
    "Verif.C67_sound",
    "Verif.C67_exception"
   ],
   "note": "Types of arguments other than the documented ones: C86. C67_exception: the fourth accepted pair is unsound (see C17)."
  },
  {
   "property": "C68",
   "status": "proved",
   "theorems": [
    "Verif.C68_lists",
    "Verif.C68_negative_limit",
    "Verif.C68_credible"
   ],
   "note": "Exact acceptance conditions of the constructors; other argument types: C86."
  },
  {
   "property": "C69",
   "status": "proved",
   "theorems": [
    "Verif.C69_vlsd_same",
    "Verif.C69_vlsd_new",
    "Verif.C69_vlsd_history"
   ],
   "note": "Simulation between the two implementations through the whole of fit, for any configuration and any measure; no assumption on the data except one cell per row and column."
  },
  {
   "property": "C70",
   "status": "proved",
   "theorems": [
    "Verif.C70_sdmap_vlsd",
    "Verif.C70_star_vlsd",
    "Verif.C70_bsd_vlsd",
    "Verif.C70_library"
   ],
   "note": "Assumes nominal data; KeysFaithful (no two attribute-value pairs with the same attribute+repr text, for SDMap) or TextsFaithful (for BSD). SDMap must start with an empty file (it leaves an older file untouched when nothing is frequent, C23_nothing)."
  },
  {
   "property": "C71",
   "status": "proved",
   "theorems": [
    "Verif.C71_value",
    "Verif.C71_read",
    "Verif.C71_errors"
   ],
   "note": "The grammar of literals is in Spec/Literal; characters beyond ASCII with the tables of Unicode 14. The limit of 4300 digits is in C113; a float is its decimal value."
  },
  {
   "property": "C72",
   "status": "proved",
   "theorems": [
    "Verif.Memory.C72_lists",
    "Verif.Memory.C72_patterns",
    "Verif.Memory.C72_copy",
    "Verif.Memory.C72_subgroup_shares",
    "Verif.Memory.C72_subgroup_copy",
    "Verif.Memory.C72_bitarrays",
    "Verif.Memory.C72_lists_fails"
   ],
   "note": "Heap model of mutable objects; C72_lists: simulation of the lists by the value model; C72_lists_fails: a program that changes what get_subgroup returned."
  },
  {
   "property": "C73",
   "status": "proved",
   "theorems": [
    "Verif.C73_crash",
    "Verif.C73_prefix",
    "Verif.C73_done",
    "Verif.C73_clean",
    "Verif.C73_raise",
    "Verif.C73_stale_fails",
    "Verif.C73_lists"
   ],
   "note": "C73_crash, C73_prefix, C73_done, C73_clean and C73_raise cover SDMap for every crash point, flush schedule and history; C73_stale_fails is a defect of the code: after a caught exception (NPV divides by zero on a constant attribute) the next result file ends with lines of the failed run. C73_lists covers GMSL, PSLD and DSLM."
  },
  {
   "property": "C74",
   "status": "proved",
   "theorems": [
    "Verif.C74_rounding",
    "Verif.C74_bound",
    "Verif.C74_monotone"
   ],
   "note": "C74_rounding says that the rounding of the model is the one of IEEE 754; C74_bound and C74_monotone are the claim."
  },
  {
   "property": "C75",
   "status": "proved",
   "theorems": [
    "Verif.C75_errors",
    "Verif.C75_only_needed",
    "Verif.C75_correctly_rounded",
    "Verif.C75_identities",
    "Verif.C75_ranges"
   ],
   "note": "C75_errors, C75_only_needed, C75_correctly_rounded, C75_identities, C75_ranges."
  },
  {
   "property": "C76",
   "status": "proved",
   "theorems": [
    "Verif.C76_error",
    "Verif.C76_sign",
    "Verif.C76_sign_limit",
    "Verif.C76_order",
    "Verif.C76_ties_split"
   ],
   "note": "C76_error, C76_sign, C76_order; C76_sign_limit and C76_ties_split are the two things not guaranteed."
  },
  {
   "property": "C77",
   "status": "proved",
   "theorems": [
    "Verif.C77_suits",
    "Verif.C77_vlsd",
    "Verif.C77_vlsd_exact",
    "Verif.C77_bsd_library",
    "Verif.C77_bsd_best",
    "Verif.C77_threshold"
   ],
   "note": "C77_vlsd, C77_vlsd_exact, C77_bsd_best (with C77_suits and C77_bsd_library for the conditions); C77_threshold is the witness of the last sentence."
  },
  {
   "property": "C78",
   "status": "proved",
   "theorems": [
    "Verif.C78_outcome",
    "Verif.C78_missing",
    "Verif.C78_defined",
    "Verif.C78_range"
   ],
   "note": "C78_outcome (value or error on any four numbers), C78_missing, C78_defined, C78_range (bound, equality case, sign)."
  },
  {
   "property": "C79",
   "status": "proved",
   "theorems": [
    "Verif.C79_vlsd_crash",
    "Verif.C79_vlsd_prefix",
    "Verif.C79_vlsd_done",
    "Verif.C79_vlsd_raise",
    "Verif.C79_star_prefix",
    "Verif.C79_star_done",
    "Verif.C79_star_raise",
    "Verif.C79_bsd",
    "Verif.C79_idsd",
    "Verif.C79_qfinder_fit",
    "Verif.C79_qfinder_test",
    "Verif.C79_sdiga"
   ],
   "note": "for VLSD, SDMapStar, SDIGA, BSD, IDSD and QFinder; the texts of floats and sequences of instances are parameters; one file per object"
  },
  {
   "property": "C80",
   "status": "proved",
   "theorems": [
    "Verif.C80_never_wrong",
    "Verif.C80_linked",
    "Verif.C80_star",
    "Verif.C80_sdmap_fit",
    "Verif.C80_sdmapstar_fit"
   ],
   "note": "Linked objects (children, parents, node links, header table) at every reachable tree; loops over references end; fit of SDMap and SDMapStar on the objects equals the model by paths."
  },
  {
   "property": "C81",
   "status": "proved",
   "theorems": [
    "Verif.C81_tree",
    "Verif.C81_header",
    "Verif.C81_star"
   ],
   "note": "Depth-first listing of every node exactly once; header lines list exactly the nodes of the selector."
  },
  {
   "property": "C82",
   "status": "proved",
   "theorems": [
    "Verif.C82_sets",
    "Verif.C82_bits",
    "Verif.C82_agree",
    "Verif.C82_rows"
   ],
   "note": "Exact text for sets and bitsets, agreement, and unique reading of the rows."
  },
  {
   "property": "C83",
   "status": "proved",
   "theorems": [
    "Verif.C83_unique",
    "Verif.C83_all_repeated",
    "Verif.C83_counts",
    "Verif.C83_counts_star",
    "Verif.C83_fails"
   ],
   "note": "The text of a pandas Series is a parameter that does not end with a quote. C83_fails shows the wrong counts with repeated labels."
  },
  {
   "property": "C84",
   "status": "proved",
   "theorems": [
    "Verif.SelPool.C84_outcomes",
    "Verif.SelPool.C84_fields",
    "Verif.SelPool.C84_no_collection",
    "Verif.SelPool.C84_window",
    "Verif.SelPool.C84_identity",
    "Verif.SelPool.C84_sequential",
    "Verif.SelPool.C84_keyError",
    "Verif.SelPool.C84_two_objects"
   ],
   "note": "accesses to the dictionary are atomic steps (CPython with the GIL); weak references disappear at a collect event"
  },
  {
   "property": "C85",
   "status": "proved",
   "theorems": [
    "Verif.Single.C85_class",
    "Verif.Single.C85_own_class",
    "Verif.Single.C85_settled",
    "Verif.Single.C85_serial",
    "Verif.Single.C85_one_thread",
    "Verif.Single.C85_two_objects",
    "Verif.Single.C85_subclass"
   ],
   "note": "reading and assigning the class attribute are atomic steps"
  },
  {
   "property": "C86",
   "status": "proved",
   "theorems": [
    "Verif.Ctors.C86_sdmap",
    "Verif.Ctors.C86_sdmapstar",
    "Verif.Ctors.C86_bsd",
    "Verif.Ctors.C86_vlsd",
    "Verif.Ctors.C86_idsd",
    "Verif.Ctors.C86_qfinder",
    "Verif.Ctors.C86_sdiga",
    "Verif.Ctors.C86_gmsl",
    "Verif.Ctors.C86_psld",
    "Verif.Ctors.C86_dslm",
    "Verif.Ctors.C86_library",
    "Verif.Ctors.C86_nan"
   ],
   "note": "objects of types the code does not mention are opaque: no methods (or only copy), not equal to a text, true in a condition"
  },
  {
   "property": "C87",
   "status": "proved",
   "theorems": [
    "Verif.C87_independent",
    "Verif.C87_others",
    "Verif.C87_sdmap",
    "Verif.C87_ops",
    "Verif.C87_vlsd",
    "Verif.C87_bsd",
    "Verif.C87_last",
    "Verif.C87_stale_fails",
    "Verif.C87_same_path_fails"
   ],
   "note": "C87_stale_fails and C87_same_path_fails are the cases in which the claim without its conditions is false."
  },
  {
   "property": "C88",
   "status": "proved",
   "theorems": [
    "Verif.C88_transform",
    "Verif.C88_lists",
    "Verif.C88_paths"
   ],
   "note": "When the two paths are equal, the messages for lines of the report itself are counted for an arbitrary flush schedule; with Python's buffer sizes there are none."
  },
  {
   "property": "C89",
   "status": "proved",
   "theorems": [
    "Verif.C89_ordinary",
    "Verif.C89_evaluate",
    "Verif.C89_series",
    "Verif.C89_order",
    "Verif.C89_order_exact",
    "Verif.C89_nan",
    "Verif.C89_nan_pattern",
    "Verif.C89_set",
    "Verif.C89_text",
    "Verif.C89_hash",
    "Verif.C89_nan_spoils"
   ],
   "note": "nan breaks selector equality and pattern sets in the code; the exact condition is C89_order_exact, witness C89_nan_spoils."
  },
  {
   "property": "C90",
   "status": "proved",
   "theorems": [
    "Verif.C90_runs",
    "Verif.C90_errors",
    "Verif.C90_file_kept",
    "Verif.C90_kinds",
    "Verif.C90_models",
    "Verif.C90_positives"
   ],
   "note": ""
  },
  {
   "property": "C91",
   "status": "proved",
   "theorems": [
    "Verif.C91_default",
    "Verif.C91_covered",
    "Verif.C91_entries",
    "Verif.C91_right_exact",
    "Verif.C91_length_exact",
    "Verif.C91_filterRows",
    "Verif.C91_filterRows_empty",
    "Verif.C91_filter",
    "Verif.C91_errors",
    "Verif.C91_total",
    "Verif.C91_fails",
    "Verif.C91_repeated"
   ],
   "note": ""
  },
  {
   "property": "C92",
   "status": "proved",
   "theorems": [
    "Verif.C92_sdmap",
    "Verif.C92_sdmap_longest",
    "Verif.C92_sdmap_overflows",
    "Verif.C92_sdmap_one_row",
    "Verif.C92_sdmapstar",
    "Verif.C92_vlsd_sets",
    "Verif.C92_vlsd_bitsets",
    "Verif.C92_vlsd_overflows",
    "Verif.C92_bsd",
    "Verif.C92_idsd",
    "Verif.C92_attained"
   ],
   "note": "Counts only open calls of the library's own recursive functions; a program must leave room for the few frames around them. tree_as_str (depth of the tree) is not included."
  },
  {
   "property": "C93",
   "status": "proved",
   "theorems": [
    "Verif.VListAny.C93_new_sets",
    "Verif.VListAny.C93_new_bits",
    "Verif.VListAny.C93_new_bits_errors",
    "Verif.VListAny.C93_exact_sets",
    "Verif.VListAny.C93_exact_bits",
    "Verif.VListAny.C93_agree",
    "Verif.VListAny.C93_wrap",
    "Verif.VListAny.C93_join",
    "Verif.VListAny.C93_differ"
   ],
   "note": "Elements of type bool, list, tuple, slice and bitarray are not modelled. Repeated row numbers are counted in tp and fp of a new list, but not after a join (C93_differ)."
  },
  {
   "property": "C94",
   "status": "proved",
   "theorems": [
    "Verif.C94_counts",
    "Verif.C94_sdmap",
    "Verif.C94_star",
    "Verif.C94_vlsd_bitsets",
    "Verif.C94_vlsd_sets",
    "Verif.C94_bsd_best",
    "Verif.C94_idsd_best",
    "Verif.C94_qfinder",
    "Verif.C94_sdmap_order",
    "Verif.C94_bsd_ties",
    "Verif.C94_idsd_ties",
    "Verif.C94_qfinder_ties",
    "Verif.C94_vlsd_threshold",
    "Verif.C94_gmsl",
    "Verif.C94_psld",
    "Verif.C94_dslm",
    "Verif.C94_list_files",
    "Verif.C94_sdiga"
   ],
   "note": ""
  },
  {
   "property": "C95",
   "status": "proved",
   "theorems": [
    "Verif.C95_sdmap",
    "Verif.C95_star",
    "Verif.C95_vlsd",
    "Verif.C95_sdmap_columns",
    "Verif.C95_star_columns",
    "Verif.C95_vlsd_columns"
   ],
   "note": ""
  },
  {
   "property": "C96",
   "status": "proved",
   "theorems": [
    "Verif.C96_possible",
    "Verif.C96_results",
    "Verif.C96_every_choice",
    "Verif.C96_inclusive_fails"
   ],
   "note": ""
  },
  {
   "property": "C97",
   "status": "proved",
   "theorems": [
    "Verif.C97_counts",
    "Verif.C97_sdmap",
    "Verif.C97_star",
    "Verif.C97_vlsd",
    "Verif.C97_bsd_best",
    "Verif.C97_idsd",
    "Verif.C97_gmsl",
    "Verif.C97_psld",
    "Verif.C97_dslm",
    "Verif.C97_qfinder",
    "Verif.C97_sdiga",
    "Verif.C97_sdiga_order"
   ],
   "note": ""
  },
  {
   "property": "C98",
   "status": "proved",
   "theorems": [
    "Verif.C98_counts",
    "Verif.C98_sdmap",
    "Verif.C98_star",
    "Verif.C98_vlsd",
    "Verif.C98_bsd_best",
    "Verif.C98_measures",
    "Verif.C98_linear",
    "Verif.C98_qg_fails"
   ],
   "note": ""
  },
  {
   "property": "C99",
   "status": "proved",
   "theorems": [
    "Verif.C99_map",
    "Verif.C99_refused",
    "Verif.C99_iter",
    "Verif.C99_fails",
    "Verif.C99_get_inherited",
    "Verif.C99_build_new",
    "Verif.C99_build",
    "Verif.C99_arguments",
    "Verif.C99_stale"
   ],
   "note": ""
  },
  {
   "property": "C100",
   "status": "proved",
   "theorems": [
    "Verif.Compare.C100_eq",
    "Verif.Compare.C100_laws",
    "Verif.Compare.C100_order",
    "Verif.Compare.C100_same",
    "Verif.Compare.C100_values",
    "Verif.Compare.C100_in",
    "Verif.Compare.C100_hash",
    "Verif.Compare.C100_clash",
    "Verif.Compare.C100_keys",
    "Verif.Compare.C100_set",
    "Verif.Compare.C100_pattern",
    "Verif.Compare.C100_pattern_selectors",
    "Verif.Compare.C100_methods",
    "Verif.Compare.C100_subgroup"
   ],
   "note": "objects that inherit object's comparisons stand for all other types; no subclasses of the library classes; hash functions arbitrary"
  },
  {
   "property": "C101",
   "status": "proved",
   "theorems": [
    "Verif.QFinder.C101_qfinder_fit",
    "Verif.QFinder.C101_qfinder_kept",
    "Verif.QFinder.C101_qfinder_next",
    "Verif.QFinder.C101_qfinder_history",
    "Verif.QFinder.C101_qfinder_unselected_fails",
    "Verif.IDSD.C101_idsd",
    "Verif.SDIGA.C101_sdiga"
   ],
   "note": "unselected_subgroups of QFinder after a caught exception: witness theorem. IDSD: on data with fewer rows before, see C35_idsd_fails."
  },
  {
   "property": "C102",
   "status": "proved",
   "theorems": [
    "Verif.QFinder.C102_names",
    "Verif.QFinder.C102_values",
    "Verif.QFinder.C102_wrong_attribute"
   ],
   "note": "The names whose second word is an operator are covered by the witness only."
  },
  {
   "property": "C103",
   "status": "proved",
   "theorems": [
    "Verif.C103_same",
    "Verif.C103_rounding",
    "Verif.C103_limits",
    "Verif.C103_counts",
    "Verif.C103_sqrt",
    "Verif.C103_binomial",
    "Verif.C103_estimate",
    "Verif.C103_binomial_counts",
    "Verif.C103_estimate_limit"
   ],
   "note": ""
  },
  {
   "property": "C104",
   "status": "proved",
   "theorems": [
    "Verif.C104_all",
    "Verif.C104_sdmap",
    "Verif.C104_sdmapstar",
    "Verif.C104_vlsd",
    "Verif.C104_bsd",
    "Verif.C104_idsd",
    "Verif.C104_qfinder",
    "Verif.C104_tree",
    "Verif.C104_conditional",
    "Verif.C104_reached"
   ],
   "note": ""
  },
  {
   "property": "C105",
   "status": "proved",
   "theorems": [
    "Verif.C105_integers",
    "Verif.C105_order",
    "Verif.C105_evaluate",
    "Verif.C105_numpy",
    "Verif.C105_read",
    "Verif.C105_fails"
   ],
   "note": ""
  },
  {
   "property": "C106",
   "status": "proved",
   "theorems": [
    "Verif.C106_sqrt",
    "Verif.C106_defined",
    "Verif.C106_defined_limit",
    "Verif.C106_sign",
    "Verif.C106_estimate",
    "Verif.C106_error"
   ],
   "note": ""
  },
  {
   "property": "C107",
   "status": "proved",
   "theorems": [
    "Verif.C107_roundings",
    "Verif.C107_no_rounding",
    "Verif.C107_results",
    "Verif.C107_counters_and_file",
    "Verif.C107_as_fit_as_the_population",
    "Verif.C107_local_search",
    "Verif.C107_local_search_exact",
    "Verif.C107_confidence",
    "Verif.C107_fitness_error",
    "Verif.C107_fit_exactly",
    "Verif.C107_exact_confidence_fails"
   ],
   "note": ""
  },
  {
   "property": "C108",
   "status": "proved",
   "theorems": [
    "Verif.C108_gmsl",
    "Verif.C108_psld",
    "Verif.C108_dslm",
    "Verif.C108_choice_gmsl",
    "Verif.C108_choice_psld_dslm",
    "Verif.C108_total",
    "Verif.C108_near_gmsl",
    "Verif.C108_near_psld",
    "Verif.C108_near_dslm",
    "Verif.C108_exact",
    "Verif.C108_error",
    "Verif.C108_rounded_gmsl",
    "Verif.C108_rounded_psld",
    "Verif.C108_error_size",
    "Verif.C108_error_dslm",
    "Verif.C108_one_class",
    "Verif.C108_limit"
   ],
   "note": ""
  },
  {
   "property": "C109",
   "status": "proved",
   "theorems": [
    "Verif.C109_roundings",
    "Verif.C109_exact",
    "Verif.C109_list",
    "Verif.C109_values",
    "Verif.C109_refinement",
    "Verif.C109_best",
    "Verif.C109_evaluated",
    "Verif.C109_history",
    "Verif.C109_contribution",
    "Verif.C109_differs",
    "Verif.C109_odds_nonneg",
    "Verif.C109_odds_order",
    "Verif.C109_odds_error",
    "Verif.C109_odds_separates",
    "Verif.C109_odds_threshold",
    "Verif.C109_odds_one",
    "Verif.C109_odds_equal_fails"
   ],
   "note": ""
  },
  {
   "property": "C110",
   "status": "proved",
   "theorems": [
    "Verif.C110_candidates",
    "Verif.C110_selection",
    "Verif.C110_unselected",
    "Verif.C110_test",
    "Verif.C110_files",
    "Verif.C110_exact",
    "Verif.C110_contribution",
    "Verif.C110_ratio",
    "Verif.C110_criteria",
    "Verif.C110_rank",
    "Verif.C110_exceeds",
    "Verif.C110_delta",
    "Verif.C110_delta_fails",
    "Verif.C110_coverage_fails"
   ],
   "note": ""
  },
  {
   "property": "C111",
   "status": "proved",
   "theorems": [
    "Verif.FloatMDL.C111_code",
    "Verif.FloatMDL.C111_code_clear",
    "Verif.FloatMDL.C111_code_conventions",
    "Verif.FloatMDL.C111_multinomial",
    "Verif.FloatMDL.C111_log2",
    "Verif.FloatMDL.C111_multinomial_conventions",
    "Verif.FloatMDL.C111_small",
    "Verif.FloatMDL.C111_exact",
    "Verif.FloatMDL.C111_maximum",
    "Verif.FloatMDL.C111_maximum_small",
    "Verif.FloatMDL.C111_sum",
    "Verif.FloatMDL.C111_maximum_conventions"
   ],
   "note": ""
  },
  {
   "property": "C112",
   "status": "proved",
   "theorems": [
    "Verif.Cache.C112_cache",
    "Verif.Cache.C112_size",
    "Verif.Cache.C112_ints",
    "Verif.Cache.C112_others",
    "Verif.Cache.C112_code_position",
    "Verif.Cache.C112_maximum",
    "Verif.Cache.C112_history"
   ],
   "note": ""
  },
  {
   "property": "C113",
   "status": "proved",
   "theorems": [
    "Verif.DigitLimit.C113_new",
    "Verif.DigitLimit.C113_read",
    "Verif.DigitLimit.C113_roundtrip",
    "Verif.DigitLimit.C113_none"
   ],
   "note": ""
  },
  {
   "property": "C114",
   "status": "proved",
   "theorems": [
    "Verif.FloatRead.C114_read",
    "Verif.FloatRead.C114_other",
    "Verif.FloatRead.C114_again",
    "Verif.FloatRead.C114_equal",
    "Verif.FloatRead.C114_fifteen",
    "Verif.FloatRead.C114_tenth",
    "Verif.FloatRead.C114_selector",
    "Verif.FloatRead.C114_pattern",
    "Verif.FloatRead.C114_subgroup",
    "Verif.FloatRead.C114_subgroup_eq",
    "Verif.FloatRead.C114_shown"
   ],
   "note": "repr is any function with ShortestRepr (Spec/BinaryVal); shortest_exists (C105) shows there is one. C114_read's bounds and IsRounding64 say what float does, C114_equal is stated with Binary64.round, which C103 characterises."
  }
 ]
}