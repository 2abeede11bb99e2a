{
 "C01": {
  "note": "Full."
 },
 "C02": {
  "note": "Exact condition proved for all histories (C02_exact). The claim without a condition is false (C02_fails: pool key collision). C02_noCollision: it holds when no attribute name contains a quote, or none contains a blank."
 },
 "C03": {
  "note": "Exact condition (C03_exact); C03_fails is the int/float witness."
 },
 "C04": {
  "note": "Exact condition on the columns (C04_exact); C04_fails is a 3-cycle outside it; the laws that hold for all selectors are in C04_all."
 },
 "C05": {
  "note": "Exact condition (C05_iff, C05_exact); C05_fails outside it."
 },
 "C06": {
  "note": "Exact condition on the columns (C06_exact); C06_fails outside it."
 },
 "C07": {
  "note": "Exact condition on the columns (C07_exact), as a refinement of an abstract set; C07_fails outside it."
 },
 "C08": {
  "note": "Coverage, empty pattern and totality in full; C08_exact says exactly when each exception is raised; C08_fails shows a missing attribute that is not reported."
 },
 "C09": {
  "note": "Full, for all patterns (sets of selectors compared as Python sets)."
 },
 "C10": {
  "note": "Full."
 },
 "C100": {
  "note": "objects that inherit object's comparisons stand for all other types; no subclasses of the library classes; hash functions arbitrary"
 },
 "C101": {
  "note": "unselected_subgroups of QFinder after a caught exception: witness theorem. IDSD: on data with fewer rows before, see C35_idsd_fails."
 },
 "C102": {
  "note": "The names whose second word is an operator are covered by the witness only."
 },
 "C11": {
  "note": "Exact conditions (C11_pattern_exact, C11_subgroup_exact) for patterns with homogeneous history; C11_fails outside them."
 },
 "C114": {
  "note": "repr is any function with ShortestRepr (Spec/BinaryVal); shortest_exists (C105) shows there is one. C114_read's bounds and IsRounding64 say what float does, C114_equal is stated with Binary64.round, which C103 characterises."
 },
 "C12": {
  "note": "Full."
 },
 "C13": {
  "note": "Full (exact rational arithmetic; Qg for non-negative g)."
 },
 "C14": {
  "note": "Full (exact rational arithmetic), including when each side is defined."
 },
 "C15": {
  "note": "Full for the 16 rational-valued measures: error cases characterised by iff, value equal to the textbook formula."
 },
 "C16": {
  "note": "Full, on counts and on data frames. Also: the Piatetsky-Shapiro estimates are monotone, WRAccOptimisticEstimate1 is not."
 },
 "C17": {
  "note": "C17_exact: the estimate is a bound exactly when the subgroup has no positives. C17_bound: the bound up to the normalising factor."
 },
 "C18": {
  "note": "Proved for faithful keys (always when no column name has a quote, C18_no_quotes); C18_fails shows that a key collision gives wrong counters otherwise."
 },
 "C19": {
  "note": "At every recursion depth; same condition on keys as C18."
 },
 "C20": {
  "note": "Full: simulation between the two implementations for every program of constructors and joins, exactness of both."
 },
 "C21": {
  "note": "Full, for every history: refinement of an abstract stack, exactly-one-owner partition, and counts."
 },
 "C22": {
  "note": "Full, for every history."
 },
 "C23": {
  "note": "Same condition on keys as C18. Exact characterisation (iff) of the lines of the file."
 },
 "C24": {
  "note": "Same condition on keys as C18. Includes that fit succeeds when the measure is defined."
 },
 "C25": {
  "note": "Same condition on keys as C18."
 },
 "C26": {
  "note": "Proved: same success, same descriptions with the same counts, same lines and counters (up to order)."
 },
 "C27": {
  "note": "Proved for every sequence of updates and for every fit on a fresh object."
 },
 "C28": {
  "note": "The claim is false: C28_wrong_counts and C28_loses_the_best are kernel-checked counterexamples with a valid estimate (nodes of a horizontal list are skipped one by one when their own estimate is below the bound); C28_never_full_loses and C28_never_full_counts show that it fails even if num_subgroups (1000) exceeds the number of all descriptions (19). Proved instead: reported counts never exceed the exact ones (all runs); lines with one selector are exact and such descriptions are only left out when k better qualities were seen (all runs); exactness plus top-k completeness whenever conditional_pruned_branches stays unchanged."
 },
 "C29": {
  "note": "both implementations (sets, bitsets), any sort criteria, any estimate that reads its dictionary by key (every library measure does); data frames with distinct columns of text and all values str"
 },
 "C30": {
  "note": "C30_complete is the strongest form (all sub-descriptions reach the threshold); C30_antitone/C30_file the exact characterisation for antitone estimates; C30_library: both Piatetsky-Shapiro estimates are antitone; C30_not_antitone shows the condition is needed (WRAcc estimate)"
 },
 "C31": {
  "note": "any history of candidates and one fit of a new object; the fit theorem needs unambiguous selector texts and qualities above -99999 (the code's dummy)"
 },
 "C33": {
  "note": "C33_fails and C33_zero show the failing cases (no negative row for BSD; num_subgroups = 0)"
 },
 "C34": {
  "note": "texts of selectors must be unambiguous, as BitsetDictionary is keyed by text"
 },
 "C35": {
  "note": "positive theorems for SDMap, SDMapStar without limit, VLSD and IDSD; C35_bsd_fails, C35_sdmapstar_fails and C35_idsd_fails are witnesses of the dependence on earlier fits"
 },
 "C36": {
  "note": "parametric in the p-value function; C36_redundant_fails is the witness of a kept redundant pair"
 },
 "C37": {
  "note": "IDSD: C37_rank, C37_rank_monotone, C37_early_exit; QFinder: C37_qfinder_rank, C37_qfinder_rank_monotone."
 },
 "C38": {
  "note": "Regression results are arbitrary functions of the two columns; p-values are numbers, texts of the selectors can be read back (SafeTexts). C38_replace_fails: the list is changed while it is iterated over."
 },
 "C39": {
  "note": "IDSD: searched data = data after grouping of the values (C58). QFinder: texts of the selectors can be read back (SafeTexts), as the patterns are read from their texts."
 },
 "C40": {
  "note": "Full for the candidates loaded; the loops are shown to end (the fuel of the model is enough) and to raise nothing when the candidates fit the data."
 },
 "C41": {
  "note": "Full. Gains over the reals (nan and infinities included); the code lengths used are those of C46."
 },
 "C42": {
  "note": "Full."
 },
 "C43": {
  "note": "All possible random choices; termination as: any fuel above the number of rules gives the same final state."
 },
 "C44": {
  "note": ""
 },
 "C45": {
  "note": "Attribute names other than fitness, at most 65535 values per attribute; C45_fitness_attribute_fails is the witness for the first condition."
 },
 "C46": {
  "note": "All functions of mdl.py over the reals. C46_kraft: the Kraft equality for every maximum up to 2^(2^65536), by comparing the sum of the probabilities with integrals; beyond that it depends on the decimals of the constant 2.865064 (C46_code_with_maximum gives it whenever the codes of 1..max leave a non-negative probability)."
 },
 "C47": {
  "note": "C47_odds_mixed_fails records a KeyError for a partly filled dictionary; with numpy integers the zero division of the p-value is a nan instead."
 },
 "C48": {
  "note": "C48_infinite_fails is the witness for infinite odds ratios."
 },
 "C49": {
  "note": "File contents are texts, read with universal newlines and written with line feeds; names of measures and float texts are parameters without semicolons and line ends."
 },
 "C50": {
  "note": "Full."
 },
 "C51": {
  "note": "C51_exact characterises both sides of a link for every history by the log of successful calls; C51_fails: a node added to two parents; C51_parent: agreement when only parentless nodes are added."
 },
 "C52": {
  "note": "Full, in a heap model of dictionaries."
 },
 "C53": {
  "note": "C53_library discharges the conditions for WRAcc and Piatetsky-Shapiro; C53_only_the_best: the second best may be lost"
 },
 "C60": {
  "note": "Same hypotheses as C38. C60_same_data_fails: KeyError on the data of fit."
 },
 "C61": {
  "note": "Candidates from a file; the log text is modelled completely. The exact failure condition (attribute name ending with a comma) is part of the statement."
 },
 "C62": {
  "note": "Fitness over exact rationals."
 },
 "C63": {
  "note": ""
 },
 "C64": {
  "note": "Types of the arguments: C86."
 },
 "C65": {
  "note": "The fitting iteration of statsmodels is a parameter assumed to return a maximiser of the likelihood (shown to exist by exists_fitsML) and its Wald p-value; everything else is proved."
 },
 "C66": {
  "note": "Gains over reals; the lists are written when all are complete (model), what is in the file after an exception is not modelled. C66_from_vlsd composes VLSD, transformation, loading and printing."
 },
 "C67": {
  "note": "Types of arguments other than the documented ones: C86. C67_exception: the fourth accepted pair is unsound (see C17)."
 },
 "C68": {
  "note": "Exact acceptance conditions of the constructors; other argument types: C86."
 },
 "C69": {
  "note": "Simulation between the two implementations through the whole of fit, for any configuration and any measure; no assumption on the data except one cell per row and column."
 },
 "C70": {
  "note": "Assumes nominal data; KeysFaithful (no two attribute-value pairs with the same attribute+repr text, for SDMap) or TextsFaithful (for BSD). SDMap must start with an empty file (it leaves an older file untouched when nothing is frequent, C23_nothing)."
 },
 "C71": {
  "note": "The grammar of literals is in Spec/Literal; characters beyond ASCII with the tables of Unicode 14. The limit of 4300 digits is in C113; a float is its decimal value."
 },
 "C72": {
  "note": "Heap model of mutable objects; C72_lists: simulation of the lists by the value model; C72_lists_fails: a program that changes what get_subgroup returned."
 },
 "C73": {
  "note": "C73_crash, C73_prefix, C73_done, C73_clean and C73_raise cover SDMap for every crash point, flush schedule and history; C73_stale_fails is a defect of the code: after a caught exception (NPV divides by zero on a constant attribute) the next result file ends with lines of the failed run. C73_lists covers GMSL, PSLD and DSLM."
 },
 "C74": {
  "note": "C74_rounding says that the rounding of the model is the one of IEEE 754; C74_bound and C74_monotone are the claim."
 },
 "C75": {
  "note": "C75_errors, C75_only_needed, C75_correctly_rounded, C75_identities, C75_ranges."
 },
 "C76": {
  "note": "C76_error, C76_sign, C76_order; C76_sign_limit and C76_ties_split are the two things not guaranteed."
 },
 "C77": {
  "note": "C77_vlsd, C77_vlsd_exact, C77_bsd_best (with C77_suits and C77_bsd_library for the conditions); C77_threshold is the witness of the last sentence."
 },
 "C78": {
  "note": "C78_outcome (value or error on any four numbers), C78_missing, C78_defined, C78_range (bound, equality case, sign)."
 },
 "C79": {
  "note": "for VLSD, SDMapStar, SDIGA, BSD, IDSD and QFinder; the texts of floats and sequences of instances are parameters; one file per object"
 },
 "C80": {
  "note": "Linked objects (children, parents, node links, header table) at every reachable tree; loops over references end; fit of SDMap and SDMapStar on the objects equals the model by paths."
 },
 "C81": {
  "note": "Depth-first listing of every node exactly once; header lines list exactly the nodes of the selector."
 },
 "C82": {
  "note": "Exact text for sets and bitsets, agreement, and unique reading of the rows."
 },
 "C83": {
  "note": "The text of a pandas Series is a parameter that does not end with a quote. C83_fails shows the wrong counts with repeated labels."
 },
 "C84": {
  "note": "accesses to the dictionary are atomic steps (CPython with the GIL); weak references disappear at a collect event"
 },
 "C85": {
  "note": "reading and assigning the class attribute are atomic steps"
 },
 "C86": {
  "note": "objects of types the code does not mention are opaque: no methods (or only copy), not equal to a text, true in a condition"
 },
 "C87": {
  "note": "C87_stale_fails and C87_same_path_fails are the cases in which the claim without its conditions is false."
 },
 "C88": {
  "note": "When the two paths are equal, the messages for lines of the report itself are counted for an arbitrary flush schedule; with Python's buffer sizes there are none."
 },
 "C89": {
  "note": "nan breaks selector equality and pattern sets in the code; the exact condition is C89_order_exact, witness C89_nan_spoils."
 },
 "C92": {
  "note": "Counts only open calls of the library's own recursive functions; a program must leave room for the few frames around them. tree_as_str (depth of the tree) is not included."
 },
 "C93": {
  "note": "Elements of type bool, list, tuple, slice and bitarray are not modelled. Repeated row numbers are counted in tp and fp of a new list, but not after a join (C93_differ)."
 }
}