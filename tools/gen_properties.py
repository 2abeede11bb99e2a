#!/usr/bin/env python3
"""Generates /verif/properties.jsonl (one JSON object per line)."""
import json
P = []
def p(title, statement, quantifier, why, anchors):
    P.append(dict(id="C%02d" % (len(P)+1), title=title, statement=statement,
                  quantifier=quantifier, why_tests_cant=why, anchors=anchors))
S="src/subgroups/"
p("Operator text round trip and evaluation",
  "For every operator, parsing its printed form gives the operator back; a text that is not one of the six printed forms is rejected; `evaluate` decides exactly the comparison that the operator's name says, and the six comparison methods of Operator form a total order that agrees with equality and hash.",
  "all operators, all input texts, all pairs of comparable values",
  "the set of rejected texts and of compared values is infinite", [S+"core/operator.py:Operator.evaluate", S+"core/operator.py:Operator.generate_from_str", S+"core/operator.py:Operator.__str__"])
p("Selector(...) returns the selector that was asked for",
  "Calling Selector(a, op, v) with legal arguments returns an object that prints as the selector asked for; its attribute name, operator and value are exactly a, op and v if and only if no selector alive in the process has other fields and the same printed form, so always when no attribute name in the history has a quote, or none has a blank. An illegal argument (ordering operator with a text value) is always refused. (That the fields are always a, op and v is false of the code: two different selectors can print the same.)",
  "all arguments and all histories of constructions and garbage collections",
  "the object pool makes the answer depend on the whole history of the process", [S+"core/selector.py:Selector.__new__"])
p("Equal selectors are interchangeable in sets and dictionaries",
  "Two selectors that compare equal have the same printed form, and the same hash whatever the hash of texts, if and only if their values are not an integer and a float; then they are the same selector. (That equal selectors always have the same hash is false of the code: 1 and 1.0.)",
  "all pairs of selectors", "infinitely many values; int/float coincidences are rare in test data", [S+"core/selector.py:Selector.__eq__", S+"core/selector.py:Selector.__hash__", S+"core/selector.py:Selector.__str__"])
p("Selector comparison is a total order",
  "The comparison methods of Selector define one total order compatible with == (irreflexive and transitive `<`, exactly one of <, ==, > holds for every pair, <=, >= are the complements of >, <) on the selectors over some columns if and only if no column is compared both with texts and with numbers by the same operator. The complement laws hold for all selectors. (On all selectors at once it is false of the code: there are 3-cycles.)",
  "all typings of columns, all pairs and triples of selectors", "transitivity ranges over all triples of attribute names, operators and values of mixed types", [S+"core/selector.py:Selector.__lt__", S+"core/selector.py:Selector.__gt__", S+"core/selector.py:Selector.__le__", S+"core/selector.py:Selector.__ge__"])
p("Selector text round trip",
  "Selector.generate_from_str(str(s)) equals s if and only if the attribute name of s has no blank and, for a float value, the printed value shows a decimal point; then the very same fields come back. (For all selectors it is false of the code.)",
  "all selectors", "attribute names and values are arbitrary texts and numbers", [S+"core/selector.py:Selector.__str__", S+"core/selector.py:Selector.generate_from_str"])
p("A pattern is a sorted duplicate-free list at all times",
  "After construction from any list and after any sequence of add_selector, remove_selector, remove_selector_by_index and copy, the selectors of a pattern are in strictly increasing order and hence distinct; this holds for all histories over some columns if and only if no column is compared both with texts and with numbers by the same operator. Under that condition the constructor's result does not depend on which stable sorting algorithm list.sort uses. (For all histories without restriction it is false of the code.)",
  "all typings of columns, all initial lists and all operation histories", "unbounded operation sequences", [S+"core/pattern.py:Pattern.__init__", S+"core/pattern.py:Pattern.add_selector", S+"core/pattern.py:Pattern.remove_selector", S+"core/pattern.py:Pattern.remove_selector_by_index"])
p("A pattern behaves as a finite set of selectors",
  "`in`, add_selector, remove_selector and == on patterns agree with membership, insertion, deletion and equality of the set of selectors put in; in particular the order and the repetitions of the constructor list never matter. This holds for all patterns over some columns if and only if no column is compared both with texts and with numbers by the same operator. (Without restriction it is false of the code.)",
  "all typings of columns, all lists of selectors, all operation histories, all queried selectors", "binary search and adjacent-duplicate removal are only right when the order is consistent on everything in the list", [S+"core/pattern.py:Pattern.__contains__", S+"core/pattern.py:Pattern.__eq__", S+"core/pattern.py:Pattern.__init__"])
p("Pattern coverage is the row-wise conjunction",
  "Pattern.is_contained returns, for each row, True exactly when every selector of the pattern matches the value of its attribute in that row; the early stop never changes the answer; the empty pattern covers all rows. It raises KeyError (TypeError) if and only if some selector whose attribute is missing (has a cell that cannot be compared with its value) is reached, that is, the selectors before it can be evaluated and leave some row; otherwise it returns. (That a missing attribute is always reported is false of the code.)",
  "all patterns and data frames", "all data sets; the early exit depends on the data", [S+"core/pattern.py:Pattern.is_contained", S+"core/selector.py:Selector.match", S+"utils/dataframe_filters.py:filter_by_list_of_selectors"])
p("Refinement is proper inclusion of selector sets",
  "p.is_refinement(q, b) is True exactly when the selectors of p are a proper subset of those of q, or the two are equal and b is True; so it is transitive, antisymmetric for b=False, and reflexive exactly when b is True. For subgroups the targets must also be equal.",
  "all pairs and triples of patterns and subgroups", "relational laws over all patterns", [S+"core/pattern.py:Pattern.is_refinement", S+"core/subgroup.py:Subgroup.is_refinement"])
p("Refining never increases coverage",
  "If q is a refinement of p then on every data frame the rows covered by q are among the rows covered by p, so true positives and false positives can only decrease.",
  "all pairs of patterns, all data frames, all targets", "anti-monotonicity over all data", [S+"core/pattern.py:Pattern.is_contained", S+"core/pattern.py:Pattern.is_refinement", S+"core/subgroup.py:Subgroup.filter"])
p("Pattern and subgroup text round trip",
  "For patterns with any history over selectors of one kind per column and operator: Pattern.generate_from_str(str(p)) is a pattern equal to p if and only if each selector of p has no blank in its attribute name, shows the point of a float value, and does not print a comma followed by a blank. Subgroup.generate_from_str(str(s)) equals s if and only if moreover the target satisfies the first two conditions and the text ', Target: ' occurs neither in the printed description nor in the printed target. (For all patterns and subgroups it is false of the code.)",
  "all patterns and subgroups", "arbitrary attribute names and values, any number of selectors", [S+"core/pattern.py:Pattern.generate_from_str", S+"core/pattern.py:Pattern.__str__", S+"core/subgroup.py:Subgroup.generate_from_str", S+"core/subgroup.py:Subgroup.__str__"])
p("Subgroup.filter partitions the covered rows",
  "The three series returned by Subgroup.filter have one entry per row; the first two are disjoint, their union is the coverage of the description (on the data without the target column: nothing is covered when the description mentions the target attribute), the first is the intersection with the target rows and the second the difference.",
  "all subgroups and data frames", "all data sets", [S+"core/subgroup.py:Subgroup.filter"])
p("Ranges of quality measures",
  "For counts with 0<=tp<=TP, 0<=fp<=FP on which the measure is defined, Support, Coverage, PPV, NPV, Sensitivity, Specificity and F1 lie in [0,1], Youden and IRR in [-1,1], WRAcc in [-1/4,1/4], AbsoluteWRAcc in [0,1/4], Qg and the optimistic estimates are non-negative.",
  "all admissible counts", "unbounded integer counts", [S+"quality_measures/"])
p("Identities between quality measures",
  "On all admissible counts: Youden = Sensitivity + Specificity - 1, IRR = PPV + Specificity - 1, F1 is the harmonic mean of PPV and Sensitivity, Support = Coverage*PPV, WRAcc = Coverage*(PPV - TP/(TP+FP)) = PiatetskyShapiro/(TP+FP), AbsoluteWRAcc = |WRAcc|.",
  "all admissible counts", "unbounded integer counts", [S+"quality_measures/"])
p("Measures reject missing parameters and undefined quotients",
  "compute raises the missing-parameter error exactly when a parameter it needs is absent from the dictionary, ZeroDivisionError exactly when a denominator vanishes, and otherwise returns a value that depends only on the needed parameters.",
  "all parameter dictionaries", "all dictionaries, including extra keys", [S+"quality_measures/"])
p("Optimistic estimates bound every refinement",
  "For a subgroup with counts (tp,fp) and any refinement of it, the value of PiatetskyShapiroOptimisticEstimate1/2 (resp. WRAccOptimisticEstimate1) on the subgroup is at least the value of PiatetskyShapiro (resp. WRAcc) on the refinement.",
  "all counts and all refinements", "quantifies over all refinements in all data sets", [S+"quality_measures/piatetsky_shapiro_optimistic_estimate_1.py", S+"quality_measures/piatetsky_shapiro_optimistic_estimate_2.py", S+"quality_measures/wracc_optimistic_estimate_1.py"])
p("When BinomialTestOptimisticEstimate1 bounds every refinement",
  "On data with positives and negatives, BinomialTestOptimisticEstimate1 of a subgroup is at least BinomialTest of every refinement of it (that covers some rows and not all) if and only if the subgroup has no positives; for every subgroup it bounds BinomialTest of every refinement divided by the normalising factor that BinomialTest applies and the estimate omits. (That it is always a bound is false of the code.)",
  "all counts and all refinements", "quantifies over all refinements in all data sets", [S+"quality_measures/binomial_test.py", S+"quality_measures/binomial_test_optimistic_estimate_1.py"])
p("FP-tree counters are exact",
  "After generate_set_of_frequent_selectors and build_tree, the header-table entry of each frequent selector is exactly its (tp, fp) in the data, every node's counters count exactly the rows whose sorted frequent-selector list starts with the node's path, and header sums equal the sums over the nodes.",
  "all nominal data frames in which different attribute-value pairs have different texts attribute+repr(value) (in particular all those whose column names contain no quote), targets and thresholds", "all data sets", [S+"data_structures/fp_tree_for_sdmap.py:FPTreeForSDMap.build_tree", S+"data_structures/fp_tree_for_sdmap.py:FPTreeForSDMap._insert_tree"])
p("Conditional FP-trees are exact",
  "In the conditional tree of a selector, the header entry of each remaining selector is exactly the (tp, fp) of the two (plus the conditioning context) together, and a selector remains exactly when that count meets the thresholds.",
  "all trees built from nominal data frames in which different attribute-value pairs have different texts attribute+repr(value) (in particular all those whose column names contain no quote), at any recursion depth", "unbounded recursion depth and data", [S+"data_structures/fp_tree_for_sdmap.py:FPTreeForSDMap.generate_conditional_fp_tree"])
p("Vertical-list join is exact in both implementations",
  "Joining two vertical lists yields the union of the selector lists (left list plus last of the right) and exactly the intersection of their positive and negative instances, with matching tp, fp and quality; set-based and bitset-based vertical lists give the same counts for every sequence of joins.",
  "all vertical lists over the same data set and all join sequences", "all instance sets", [S+"data_structures/vertical_list_with_sets.py:VerticalListWithSets.join", S+"data_structures/vertical_list_with_bitsets.py:VerticalListWithBitsets.join"])
p("A subgroup list partitions the data set",
  "After any sequence of add_subgroup and delete_last_subgroup, every positive (negative) row of the data set belongs to exactly one of: the positional bitarray of one subgroup of the list, or the default rule; each positional bitarray is the individual one minus the rows of earlier subgroups. The getters return the entry at a position counted from the start, or from the end if negative, and raise IndexError outside; the numbers about the data never change.",
  "all histories of additions and deletions", "unbounded operation histories", [S+"data_structures/subgroup_list.py:SubgroupList"])
p("delete_last_subgroup undoes add_subgroup",
  "Adding a subgroup and then deleting the last one restores the subgroup list exactly (subgroups, bitarrays, default rule, lengths), so evaluating a candidate leaves the model unchanged.",
  "all subgroup lists reachable and all candidates", "all states", [S+"data_structures/subgroup_list.py:SubgroupList.add_subgroup", S+"data_structures/subgroup_list.py:SubgroupList.delete_last_subgroup", S+"algorithms/subgroup_lists/gmsl.py:GMSL._compute_delta_data_model_candidate"])
p("SDMap reports only true frequent subgroups with exact counts",
  "Every description that SDMap evaluates is a non-empty set of attribute=value selectors on non-target columns which occurs in the data, meets the tp/fp (or n) thresholds, and is reported with its exact tp and fp in the data; it is written exactly when its quality reaches the minimum.",
  "all nominal data frames in which different attribute-value pairs have different texts attribute+repr(value) (in particular all those whose column names contain no quote), targets, thresholds and quality measures", "all data sets", [S+"algorithms/subgroup_sets/sdmap.py:SDMap.fit", S+"algorithms/subgroup_sets/sdmap.py:SDMap._fpgrowth"])
p("SDMap misses nothing",
  "Every non-empty set of attribute=value selectors on non-target columns that occurs in the data and meets the thresholds is evaluated by SDMap.",
  "all nominal data frames in which different attribute-value pairs have different texts attribute+repr(value) (in particular all those whose column names contain no quote), targets and thresholds", "all data sets", [S+"algorithms/subgroup_sets/sdmap.py:SDMap._fpgrowth"])
p("SDMap evaluates each description once and counts it once",
  "No description is evaluated twice in a fit, and selected_subgroups + unselected_subgroups = visited_nodes grows by the number of evaluated descriptions.",
  "all nominal data frames in which different attribute-value pairs have different texts attribute+repr(value) (in particular all those whose column names contain no quote), targets and thresholds", "all data sets", [S+"algorithms/subgroup_sets/sdmap.py:SDMap._fpgrowth", S+"algorithms/subgroup_sets/sdmap.py:SDMap._handle_individual_result"])
p("SDMapStar without top-k equals SDMap",
  "With num_subgroups = 0, SDMapStar evaluates exactly the same descriptions with the same counts as SDMap.",
  "all nominal data frames in which different attribute-value pairs have different texts attribute+repr(value) (in particular all those whose column names contain no quote), targets and thresholds", "all data sets", [S+"algorithms/subgroup_sets/sdmapstar.py:SDMapStar._fpgrowth"])
p("SDMapStar's k best qualities",
  "At any time the list of best qualities is sorted, holds min(k, number seen) values and these are the largest values seen so far.",
  "all sequences of evaluated subgroups", "unbounded sequences", [S+"algorithms/subgroup_sets/sdmapstar.py:SDMapStar._updateKSubgroups"])
p("SDMapStar reports exact counts and never loses a top-k subgroup",
  "With num_subgroups = k > 0 and a valid optimistic estimate, the subgroups reported carry their exact tp and fp, and every description whose quality is among the k best is reported.",
  "all data frames and parameters", "depends on the pruning history", [S+"algorithms/subgroup_sets/sdmapstar.py:SDMapStar._fpgrowth", S+"data_structures/fp_tree_for_sdmapstar.py:FPTreeForSDMapStar.generate_conditional_fp_tree_star"])
p("VLSD reports only true subgroups with exact counts, each once",
  "Every description handled by VLSD occurs in the data, has the exact tp and fp reported, has optimistic estimate at least the threshold, and is handled once; it is written exactly when its quality reaches the minimum.",
  "all data frames of text with distinct columns, targets, thresholds, sort criteria and vertical-list implementations, and all estimates that read their parameters by key (those of the library do)", "all data sets", [S+"algorithms/subgroup_sets/vlsd.py:VLSD.fit", S+"algorithms/subgroup_sets/vlsd.py:VLSD._search"])
p("VLSD misses nothing above the optimistic-estimate threshold",
  "If the optimistic estimate does not increase under refinement, every description occurring in the data whose optimistic estimate reaches the threshold is handled, whatever the sort criteria.",
  "all data frames, targets, thresholds, antitone estimates and sort criteria", "all data sets", [S+"algorithms/subgroup_sets/vlsd.py:VLSD._search", S+"algorithms/subgroup_sets/vlsd.py:_query_triangular_matrix"])
p("BSD/CBSD/CPBSD keep at most k subgroups in order",
  "After handling any sequence of candidate subgroups the list of best subgroups never exceeds the requested number, is in ascending quality, holds no duplicates of the dummy entry, and every candidate is accounted for in the counters.",
  "all sequences of candidates of one data set with at least one selector and quality above -99999 (the code's dummy), num_subgroups >= 1", "unbounded search histories", [S+"algorithms/subgroup_sets/bsd.py:BSD._handle_individual_result", S+"algorithms/subgroup_sets/cbsd.py:CBSD._handle_individual_result", S+"algorithms/subgroup_sets/cpbsd.py:CPBSD._handle_individual_result"])
p("BSD keeps only relevant subgroups",
  "No subgroup in BSD's result list is dominated by another one of the list (positives contained in the other's positives and negatives containing the other's negatives).",
  "all sequences of different candidates of one data set, as for C31, and all fits of a new object", "unbounded search histories", [S+"algorithms/subgroup_sets/bsd.py:BSD._checkRel", S+"algorithms/subgroup_sets/bsd.py:BSD._checkRelevancies"])
p("When BSD, CBSD and CPBSD run without failing",
  "fit of a new object does not fail on any nominal data set with a valid target on which measure and optimistic estimate are defined, provided that (BSD only) at least one row is negative; without one, BSD can fail with a TypeError.",
  "all data frames with unambiguous selector texts, all configurations with num_subgroups > 0, qualities above -99999 (the code's dummy)", "the failing size is a boundary case of slicing", [S+"algorithms/subgroup_sets/bsd.py:BSD._checkRelevancies", S+"algorithms/subgroup_sets/bsd.py:BSD._checkRel"])
p("BSD bitsets and frequent selectors are exact",
  "The positive and negative bitsets of a selector have one bit per positive/negative row which is set exactly when the selector matches; the frequent selectors are exactly those with at least min_support positive rows; every description handled is handled once and its tp, fp, bits, quality and estimate are exact.",
  "all data frames whose selectors have unambiguous texts, all targets, thresholds and depths", "all data sets", [S+"data_structures/bitset_bsd.py:BitsetBSD.build_bitset", S+"data_structures/bitset_bsd.py:BitsetBSD.generate_set_of_frequent_selectors"])
p("What a repeated fit on one object gives",
  "Whatever an SDMap, VLSD or SDMapStar (num_subgroups = 0) object has done before, fit handles the same descriptions and writes the same file as that of a new object, and its counters are the previous ones plus those of a new object (SDMap leaves the old file when nothing is frequent). BSD, CBSD, CPBSD and SDMapStar with a limit keep their list of best subgroups, so that a fit on another data set can report subgroups of the previous one. After fits on data sets with at least as many rows, an IDSD object gives the list of a new object (counters accumulate); after one with fewer rows it can give another list.",
  "all configurations, data sets, targets and previous states", "depends on the call history", [S+"algorithms/subgroup_sets/sdmap.py:SDMap.fit", S+"algorithms/subgroup_sets/vlsd.py:VLSD.fit", S+"algorithms/subgroup_sets/bsd.py:BSD.fit"])
p("IDSD reports the best descriptions",
  "fit of a new IDSD object does not fail; its list has at most num_subgroups different descriptions, in descending order of rank and, for equal ranks, of odds ratio, each occurring in the searched data with at most max_complexity selectors and with exact rank and values; a reported refinement of another reported description is never better than it; no description with at most max_complexity selectors is better than the first of the list. Two redundant descriptions of equal rank and odds ratio can both be reported.",
  "all nominal data frames, targets, thresholds, p-value functions, num_subgroups > 0 and max_complexity", "pruning and removal errors only show on particular data", [S+"algorithms/subgroup_sets/idsd.py:IDSD._top_k_update", S+"algorithms/subgroup_sets/idsd.py:IDSD._redundant", S+"algorithms/subgroup_sets/idsd.py:IDSD._compute_rank"])
p("Credibility rank is the number of consecutive criteria met",
  "IDSD's rank is the length of the longest prefix of criteria that hold, whether or not the measures after the first failing criterion are computed; QFinder's rank is the number of the last criterion that holds with all those before it, the fourth excepted; ranks are monotone in the criteria.",
  "all criteria vectors", "all vectors", [S+"algorithms/subgroup_sets/idsd.py:IDSD._compute_rank", S+"algorithms/subgroup_sets/qfinder.py:QFinder._handle_individual_result"])
p("QFinder reports at most num_subgroups patterns, with a reason for every absence",
  "With num_subgroups >= 1 and p-values that are numbers, fit ends without error and reports at most num_subgroups different candidates of the data with their exact credibility values, fewer selectors first, then higher rank, then lower p-value. When one reported pattern refines another, its odds ratio exceeds the other's by more than delta. A candidate is absent only if one with fewer of its selectors has an odds ratio it does not exceed, or one with more selectors exceeds it with a lower p-value, or num_subgroups other candidates have p-values not above its own or that of a higher-ranked one of the same length. A pattern that should have been replaced by a reported refinement stays only if the refinement replaced one before it. num_subgroups = 0 is a ValueError, a negative number reports nothing.",
  "all data sets, targets, thresholds and regression results", "iteration order and in-loop removals depend on the data", [S+"algorithms/subgroup_sets/qfinder.py:QFinder._select_top_k", S+"algorithms/subgroup_sets/qfinder.py:QFinder._redundant"])
p("Candidate generation is complete and duplicate-free",
  "IDSD evaluates each description at most once; each occurs in the searched data and has at most max_complexity selectors; every such description that reaches the coverage threshold is evaluated, and all of them are when no reported description has a positive rank. QFinder's candidates are exactly the descriptions that occur in the data with at most max_complexity selectors, each once, on all the values of an attribute with at most cats values and on the cats - 1 most frequent ones of the others (its 'other' category is never reported).",
  "all selector tables and length bounds", "combinatorially many", [S+"algorithms/subgroup_sets/qfinder.py:QFinder._generate_candidate_patterns", S+"algorithms/subgroup_sets/idsd.py:IDSD._grow_tree"])
p("GMSL/PSLD/DSLM never reuse or refine a chosen subgroup",
  "A run gives exactly max_sl lists. Across all of them no line of the candidate file is used twice, no chosen subgroup properly refines one chosen before it (GMSL) or is a proper refinement or generalisation of another one (PSLD, DSLM), and each list of PSLD and DSLM has at most the maximum size; if all candidates fit the data the run ends without an exception. (A subgroup that appears in two lines can be chosen in two lists.)",
  "all candidate files, data sets and gain functions", "greedy search history over arbitrary candidates", [S+"algorithms/subgroup_lists/gmsl.py:GMSL.fit", S+"algorithms/subgroup_lists/psld.py:PSLD.fit", S+"algorithms/subgroup_lists/dslm.py:DSLM.fit"])
p("GMSL/PSLD/DSLM add only candidates with positive gain covering new positives",
  "Every subgroup added has strictly positive compression gain, maximal among the remaining candidates at that moment (first one on ties), and covers at least one positive row not covered before in that list (PSLD/DSLM; in GMSL a row of either class). A list ends only at the maximum size or when no remaining candidate has positive gain. The gain is the MDL one: code of the newly covered rows by the default rule minus their own code minus the growth of the model, normalised by rows^beta; with one class only no subgroup is added.",
  "all candidates and gain functions", "greedy search history", [S+"algorithms/subgroup_lists/gmsl.py:GMSL.fit", S+"algorithms/subgroup_lists/psld.py:PSLD.fit", S+"algorithms/subgroup_lists/dslm.py:DSLM.fit"])
p("DSLM overlap factors",
  "The overlap factors lie in [0,1]; with no earlier subgroup the positive factor of a candidate covering positives is 0; after any entries the factor is the share of their coverage, counted with multiplicity, that the candidate repeats; a candidate exceeding a maximum overlap is never added.",
  "all bitarrays and counter states", "all histories", [S+"algorithms/subgroup_lists/dslm.py:DSLM._compute_positive_overlap_factor", S+"algorithms/subgroup_lists/dslm.py:DSLM._compute_negative_overlap_factor"])
p("SDIGA terminates with distinct credible subgroups",
  "For every sequence of random choices SDIGA's outer loop stops, after at most as many turns as there are rules over the data, plus one; the returned patterns are rules with values of the data, pairwise different, none refines an earlier one and each has confidence at least min_confidence. (Weights not both 0, at least two individuals, at least two attributes besides the target, none called fitness, at most 65535 values per attribute.)",
  "all data sets, parameters and random choices", "randomised search", [S+"algorithms/subgroup_sets/sdiga.py:SDIGA._SDIGA"])
p("SDIGA local search only improves",
  "Local search terminates at a generalisation of the given chromosome whose support and confidence are at least those of the original and from which no condition can be dropped with more support and no less confidence; that generalisation is returned, with its values, if its confidence is at least the minimum, and the given chromosome otherwise.",
  "all chromosomes and data sets", "all data sets", [S+"algorithms/subgroup_sets/sdiga.py:SDIGA._local_search"])
p("SDIGA chromosome encoding is faithful",
  "The dictionary lists the values of every attribute in order; every rule over the data is the decoding of exactly one chromosome; decoding a chromosome gives the pattern that covers in the original data exactly the rows that the chromosome filter keeps in the encoded data; the filter and its complement split the data. An attribute called fitness breaks this (its values get lost and the rule is reported with counts of another one).",
  "all data sets and chromosomes", "all data sets", [S+"algorithms/subgroup_sets/sdiga.py:_chromosome_encoding_and_dictionary", S+"algorithms/subgroup_sets/sdiga.py:_chromosome_decoding", S+"algorithms/subgroup_sets/sdiga.py:_filter_rows_with_chromosome", S+"algorithms/subgroup_sets/sdiga.py:_filter_rows_without_chromosome"])
p("MDL code lengths are well defined",
  "universal_code_for_integer terminates for every non-negative integer; the value is 0 for 0, otherwise the constant plus the iterated logarithms above the threshold, and is strictly increasing; negative integers are refused. For every max up to 2**(2**65536) (and every max for which the universal codes of 1..max leave a non-negative probability) the code length with maximum is a proper code over 1..max (Kraft equality) with lengths at most the universal ones. For any number of categories and positive samples the multinomial complexity computed is the normalising sum over all distributions of the samples up to a relative error of 1e-10, satisfies the recurrence exactly and is at least 1; the documented conventions hold otherwise.",
  "all integers", "termination for all inputs", [S+"utils/mdl.py"])
p("Statistical credibility measures",
  "OddsRatioStatistic is never negative and, with rows of both classes and a pattern that covers some rows but not all, is the odds ratio of the contingency table (infinite when the denominator vanishes), greater than 1 exactly when the pattern has a larger share of positives than the data; otherwise the documented conventions hold. From two boolean series it is the odds ratio of the row counts. PValueIndependence lies in [0,1], is 1 exactly at independence, decreases as the positives move away from the expected number, and is defined unless one of the classes is empty (then a partially covering pattern divides by zero).",
  "all contingency tables", "unbounded counts", [S+"credibility_measures/odds_ratio_stat.py", S+"credibility_measures/p_value_independence.py"])
p("Selector contribution is the minimum marginal contribution",
  "For a pattern of at least two selectors, SelectorContribution returns the minimum over its selectors of odds_ratio(pattern) - odds_ratio(pattern without it) and the ratio of maximum to minimum, when none of these differences is inf - inf; giving the threshold changes neither the verdict on it nor the values when it is met. (When all the odds ratios are infinite the result is infinite, although no selector contributes.) Computed from the appearances of the selectors, the odds ratios compared are those of the rows where all the selectors appear. A call fails exactly if a parameter is missing, the definition is unknown, or an odds ratio or an appearance it needs is missing.",
  "all patterns and odds-ratio tables", "all patterns", [S+"credibility_measures/selector_contribution.py:SelectorContribution.compute"])
p("Result-file transformation is line by line and lossless",
  "to_input_format_for_subgroup_list_algorithms writes exactly one line per input line, in order: the subgroup text and the two bit texts if the line is a result line with bitsets, and otherwise an error with the line number; the two numbers returned count the two kinds. Every line written by VLSD with bitsets (no line ends in its texts) is transformed to its subgroup text and its two bitarrays; lines without bitsets give errors. The three line ends \\n, \\r\\n and \\r are read alike, whatever the mixture; a text with a line end of its own (also a lone \\r) does not survive, because its line is read as two.",
  "all result files", "all file contents", [S+"utils/file_format_transformations.py:to_input_format_for_subgroup_list_algorithms", S+"algorithms/subgroup_lists/gmsl.py:GMSL._load_candidates"])
p("All combinations",
  "_generate_all_combinations returns every sub-list of the list exactly once (2^n of them), the empty one included.",
  "all lists", "exponential", [S+"algorithms/subgroup_sets/sdmap.py:_generate_all_combinations"])
p("FP-tree node bookkeeping",
  "After any sequence of add_child and delete_child operations each child is stored under its own selector, once per selector, and adding a second child with the same selector is refused and changes nothing. A node has another as its child if and only if the last successful call about the two added it, and its parent link points to p if and only if the last successful call about it, with any parent, added it to p; so the two agree when add_child is only given parentless nodes. (That they always agree is false of the code: a node added to two parents.)",
  "all operation histories", "unbounded histories", [S+"data_structures/fp_tree_node.py:FPTreeNode"])
p("User parameters can never override the counts",
  "Additional parameters given to an algorithm never change tp, fp, TP or FP used to compute the quality; the caller's dictionary is not modified.",
  "all parameter dictionaries", "all dictionaries", [S+"algorithms/subgroup_sets/sdmap.py:_delete_subgroup_parameters_from_a_dictionary", S+"algorithms/subgroup_sets/vlsd.py:_delete_subgroup_parameters_from_a_dictionary"])
p("BSD, CBSD and CPBSD report the best subgroup",
  "With an optimistic estimate that bounds the quality of refinements (and, for BSD, a measure that does not decrease with more positives and fewer negatives), no description of at most max_depth + 1 frequent selectors that occurs in the data has a greater quality than the best reported subgroup. WRAcc and Piatetsky-Shapiro with their estimates satisfy these conditions on all data (fewer than 99999 rows for the latter).",
  "all data frames with unambiguous selector texts, targets, numbers of subgroups and depths", "pruning errors only show on particular data", [S+"algorithms/subgroup_sets/bsd.py:BSD._BSD", S+"algorithms/subgroup_sets/bsd.py:BSD._handle_individual_result", S+"algorithms/subgroup_sets/cbsd.py:CBSD._checkRel", S+"algorithms/subgroup_sets/cpbsd.py:CPBSD._checkRel"])
p("CBSD and CPBSD report no two equivalent subgroups",
  "Two subgroups of equal quality in the result of CBSD do not cover the same rows; in the result of CPBSD they do not cover the same positive rows.",
  "all sequences of different candidates as for C31, all data frames with unambiguous selector texts", "unbounded search histories", [S+"algorithms/subgroup_sets/cbsd.py:CBSD._checkRelevancies", S+"algorithms/subgroup_sets/cpbsd.py:CPBSD._checkRelevancies"])
p("Subgroup equality",
  "Two subgroups are == exactly when their descriptions have equal selectors one by one and their targets are equal; != is the negation; == is an equivalence relation and a copy is equal to the original.",
  "all pairs and triples of subgroups", "infinitely many subgroups", [S+"core/subgroup.py:Subgroup.__eq__", S+"core/subgroup.py:Subgroup.__ne__", S+"core/subgroup.py:Subgroup.copy"])
p("Shape tests of FP-trees",
  "there_is_a_single_path tells exactly whether all nodes of the tree lie on one path from the root, and is_empty exactly whether the tree has no node (equivalently, an empty header table), in the tree of the data and in every conditional tree.",
  "all data frames, targets and thresholds, all conditional trees", "all data sets", [S+"data_structures/fp_tree_for_sdmap.py:FPTreeForSDMap.there_is_a_single_path", S+"data_structures/fp_tree_for_sdmap.py:FPTreeForSDMap.is_empty"])
p("Inconsistent thresholds are refused",
  "SDMap and SDMapStar accept thresholds exactly when either minimum_tp and minimum_fp, or minimum_n, are given, and then use those given; every other combination is refused with InconsistentMethodParametersError.",
  "all values of the three thresholds", "all values", [S+"algorithms/subgroup_sets/sdmap.py:SDMap.__init__", S+"algorithms/subgroup_sets/sdmapstar.py:SDMapStar.__init__"])
p("Grouping of the less frequent values",
  "With a limit of cats values, a column with at most cats values is left as it is; in another one each cell is kept or replaced by one marker that is not a value of the column, the replaced values are at most as frequent as the kept ones, and the result has exactly cats different values. This holds in whatever order pandas lists equally frequent values. The target column and the order of rows and columns do not change.",
  "all columns, frames and limits >= 1", "all columns", [S+"algorithms/subgroup_sets/idsd.py:IDSD._reduce_categories"])
p("IDSD counters",
  "After fit, reported <= evaluated <= visited subgroups, the number of unselected ones is never negative, nothing is counted as pruned without max_complexity, and reading non_unique_visited_subgroups raises AttributeError.",
  "all nominal data frames, targets and configurations", "unbounded search histories", [S+"algorithms/subgroup_sets/idsd.py:IDSD._grow_tree", S+"algorithms/subgroup_sets/idsd.py:IDSD._get_unselected_subgroups"])
p("QFinder.test_subgroups and the files of QFinder",
  "test_subgroups on data with the same attributes returns the credibility values of the reported patterns that occur there, if each of them with two or more selectors has all its one-selector-shorter patterns among them, and raises KeyError otherwise (even on the data of fit). The file of fit has one line per reported pattern with its values; that of test_subgroups too when all reported patterns occur in the test data, and otherwise writing it raises KeyError.",
  "all training and test data sets, targets and configurations", "unbounded data", [S+"algorithms/subgroup_sets/qfinder.py:QFinder.test_subgroups", S+"algorithms/subgroup_sets/qfinder.py:QFinder._to_file", S+"data_structures/bitset_qfinder.py:Bitset_QFinder.compute_credibility_measures"])
p("Loading of candidates",
  "GMSL, PSLD and DSLM load every line of the input format whose bitarrays have one bit per row, in order, as the subgroup it spells, and report every other line with its number and its defects; this fails (IndexError, nothing loaded) exactly when a line of the right format has an attribute name ending with a comma in its description. On data whose names and values are words of the format without such names, writing the result of VLSD, transforming it and loading it gives back exactly the subgroups and bitarrays found, and the three algorithms run on them (at most 64 columns).",
  "all input files, numbers of rows; all such data frames, targets and VLSD configurations", "all file contents, unbounded data", [S+"algorithms/subgroup_lists/gmsl.py:GMSL._load_candidates", S+"algorithms/subgroup_lists/gmsl.py:GMSL.INPUT_LINE_REGEX_PATTERN", S+"algorithms/subgroup_sets/vlsd.py:VLSD._handle_individual_result"])
p("SDIGA counters and result file",
  "After fit, selected_subgroups grew by the number of returned patterns and unselected_subgroups by 2*max_generation + population_size - 1 per turn; the file has one line per pattern, in order, with its fitness, its true and false positives in the data and among the rows not covered by the earlier patterns, and the totals of both.",
  "all data sets, parameters and random choices", "randomised search", [S+"algorithms/subgroup_sets/sdiga.py:SDIGA._SDIGA", S+"algorithms/subgroup_sets/sdiga.py:SDIGA.fit"])
p("SDIGA keeps the best individuals",
  "A reported rule is at least as fit as every individual of the first population of its turn; each generation replaces only the worst individual, by the second child of the two best ones (the first child is never kept); crossover exchanges exactly the genes between the two points and mutation changes one gene.",
  "all data sets, parameters and random choices", "randomised search", [S+"algorithms/subgroup_sets/sdiga.py:SDIGA._SDIGA", S+"algorithms/subgroup_sets/sdiga.py:SDIGA._local_search"])
p("SDIGA refuses what it cannot handle",
  "The constructor accepts exactly positive numbers of generations and individuals, probabilities strictly between 0 and 1, weights and minimum confidence >= 0, and a path when a file is to be written; fit refuses non-nominal data, a missing target attribute and a target value that does not occur. A population of one always ends in IndexError, two zero weights in ZeroDivisionError, a crossover with a single attribute in ValueError.",
  "all arguments, data sets and random choices", "all values", [S+"algorithms/subgroup_sets/sdiga.py:SDIGA.__init__", S+"algorithms/subgroup_sets/sdiga.py:SDIGA.fit", S+"algorithms/subgroup_sets/sdiga.py:SDIGA._perform_crossover"])
p("Measures computed with a regression",
  "OddsRatioGLM and PValueGLM use the fitted model they are given, or fit one to the two series, or raise ParameterNotFoundError. If the fit is one of maximum likelihood, then for a pattern covering rows of both classes the odds ratio is the number of covered target rows divided by that of covered other rows (the regression has no constant: it equals OddsRatioStatistic only if the uncovered rows are balanced), and the p-value lies in (0,1], is that of the logarithm of these odds with standard error sqrt(1/tp + 1/fp), and is 1 exactly if tp = fp; QFinder reports these odds. For a pattern covering rows of one class only there is no maximum-likelihood estimate.",
  "all pairs of series; all fitting procedures that maximise the likelihood", "real analysis over all inputs", [S+"credibility_measures/odds_ratio_glm.py:OddsRatioGLM.compute", S+"credibility_measures/p_value_glm.py:PValueGLM.compute", S+"data_structures/bitset_qfinder.py:Bitset_QFinder.compute_credibility_measures"])
p("Printed form of subgroup lists and output files",
  "After any history of add_subgroup and delete_last_subgroup, the printed form of a subgroup list gives for each subgroup, in order, its text, the positives and negatives that it covers and no earlier one does, those it covers on its own, and for the default rule those covered by none; the numbers at the positions and of the default rule add up to all positives and negatives of the data, and the text determines all of them. The output file of GMSL, PSLD and DSLM consists of the true sizes of the data, the report of the loading and the printed lists the rule of the algorithm produces; starting from what VLSD found (word-like data), all numbers printed are true of the data. fit returns unless a line has the trap of C61 or the attributes do not fit the data.",
  "all histories, lists, input files and data frames", "all histories and file contents", [S+"data_structures/subgroup_list.py:SubgroupList.__str__", S+"algorithms/subgroup_lists/gmsl.py:GMSL.fit", S+"algorithms/subgroup_lists/gmsl.py:GMSL._handle_individual_result", S+"algorithms/subgroup_lists/psld.py:PSLD.fit", S+"algorithms/subgroup_lists/dslm.py:DSLM.fit"])
p("Accepted optimistic estimates",
  "The constructors of BSD (CBSD, CPBSD), SDMapStar and VLSD accept a quality measure and an optimistic estimate exactly for the pairs (WRAcc, WRAccOptimisticEstimate1), (PiatetskyShapiro, PiatetskyShapiroOptimisticEstimate1 or 2) and (BinomialTest, BinomialTestOptimisticEstimate1), and the other values exactly when valid; otherwise they raise ValueError (thresholds: InconsistentMethodParametersError). For the first three pairs the estimate of a subgroup is an upper bound of the measure of every refinement with rows; for the fourth pair it is not. Names of quality measures are different.",
  "all pairs of quality measures, arguments and counts", "all counts", [S+"quality_measures/quality_measure.py:QualityMeasure", S+"algorithms/subgroup_sets/bsd.py:BSD.__init__", S+"algorithms/subgroup_sets/vlsd.py:VLSD.__init__", S+"algorithms/subgroup_sets/sdmapstar.py:SDMapStar.__init__"])
p("Checks of numeric parameters",
  "GMSL, PSLD and DSLM accept exactly positive numbers of lists and sizes and beta in [0,1]; the overlap limits of DSLM are not checked, and with a negative one all lists are empty. IDSD accepts exactly a positive number of subgroups, a number of categories that is positive or -1, coverage and p-value thresholds in [0,1] and other thresholds >= 0; QFinder the same without a check of the number of subgroups and with 0 categories. Refused values raise ValueError; accepted ones are used unchanged.",
  "all values of the parameters", "all values", [S+"algorithms/subgroup_lists/gmsl.py:GMSL.__init__", S+"algorithms/subgroup_lists/psld.py:PSLD.__init__", S+"algorithms/subgroup_lists/dslm.py:DSLM.__init__", S+"algorithms/subgroup_sets/idsd.py:IDSD.__init__", S+"algorithms/subgroup_sets/qfinder.py:QFinder.__init__"])
p("VLSD with sets and with bitsets",
  "On every data set and for every history of fit calls, VLSD with vertical_lists_implementation='sets' and with 'bitsets' raise the same exceptions or end with the same counters and the same lines in the same order: same subgroups, qualities, estimates and counts, and sequences of instances that stand for the same rows.",
  "all data frames, targets, configurations and histories", "all data and histories", [S+"algorithms/subgroup_sets/vlsd.py:VLSD.fit", S+"data_structures/vertical_list_with_sets.py:VerticalListWithSets.join", S+"data_structures/vertical_list_with_bitsets.py:VerticalListWithBitsets.join"])
p("The algorithms agree",
  "With the same measure and minimum quality, and an estimate that bounds the quality of refinements with a threshold not above the minimum quality (true on all data for WRAcc and Piatetsky-Shapiro with the estimates of the library), SDMap (and SDMapStar with num_subgroups = 0) writes exactly the lines (subgroup, quality, tp, fp, TP, FP) of VLSD that meet its support thresholds, up to the order; every line that BSD, CBSD or CPBSD report with at least that quality is one of VLSD's, and no line of VLSD with at most max_depth + 1 selectors of enough support is better than all of theirs.",
  "all nominal data sets (with unambiguous texts), targets, thresholds, measures and parameters", "relates unbounded searches of different algorithms", [S+"algorithms/subgroup_sets/sdmap.py:SDMap.fit", S+"algorithms/subgroup_sets/sdmapstar.py:SDMapStar.fit", S+"algorithms/subgroup_sets/vlsd.py:VLSD.fit", S+"algorithms/subgroup_sets/bsd.py:BSD.fit"])
p("Reading a selector",
  "Selector.generate_from_str(x) returns the selector (a, op, v) exactly when x is the attribute name a without blanks, a blank, the text of op, a blank and a non-empty text standing for v (a text v needs = or !=). In quotes a text stands for what is between them; else a decimal literal with a point for a float and an integer literal for an int (optional sign, underscores between digits, blanks around; digits and blanks of all scripts), anything else for itself: every non-empty text stands for exactly one value. In all other cases it fails: IndexError when a part is missing, AttributeError when the second word is no operator, ValueError when a text is to be compared by order.",
  "all texts", "all texts", [S+"core/selector.py:Selector.generate_from_str", S+"core/operator.py:Operator.generate_from_str"])
p("No aliasing",
  "In every program over patterns, subgroups, bitarrays and subgroup lists: a pattern changes only by calls of its own methods, so that a copy and its original are independent; Subgroup(description, target) shares the pattern it is given, subgroup.copy() does not. A subgroup list holds the values that the arguments had when its methods were called: later changes of the patterns, subgroups and bitarrays passed, and calls on other lists, do not change it, and it never changes the bitarrays passed. The only exception: get_subgroup and the getters of bitarrays return the objects that the list holds, so that a program that changes them in place changes the list.",
  "all programs (sequences of constructor and method calls on any objects)", "all histories of sharing and mutation", [S+"core/pattern.py:Pattern.copy", S+"core/subgroup.py:Subgroup.copy", S+"core/subgroup.py:Subgroup.__init__", S+"data_structures/subgroup_list.py:SubgroupList.__init__", S+"data_structures/subgroup_list.py:SubgroupList.add_subgroup", S+"data_structures/subgroup_list.py:SubgroupList.delete_last_subgroup", S+"data_structures/subgroup_list.py:SubgroupList.get_subgroup"])
p("Result files under crashes and exceptions",
  "At every moment of fit of SDMap, whatever has been flushed, the file on the disk is the earlier one or a first part of the lines of the accepted descriptions handled so far (plus the beginning of the next line), and a run that is killed leaves just that; the counters count exactly the descriptions handled. A run that returns leaves the file closed with exactly its lines, unless an earlier run of the same object raised or was interrupted: its file stays open, and what is still in its buffer is written when the next run opens the file, so that the new file ends with the old text as far as that is longer. A run that raises after opening the file leaves it open with the lines handled before. The same holds for the output file of GMSL, PSLD and DSLM: complete lists only.",
  "all data frames, targets, configurations, measures, flush schedules, crash points and histories", "all crash points and schedules", [S+"algorithms/subgroup_sets/sdmap.py:SDMap.fit", S+"algorithms/subgroup_sets/sdmap.py:SDMap._handle_individual_result", S+"algorithms/subgroup_lists/gmsl.py:GMSL.fit", S+"algorithms/subgroup_lists/gmsl.py:GMSL._load_candidates"])
p("Optimistic estimates in floating point",
  "As they are computed, with every operation rounded to the nearest binary64 number (ties to even), and on data of up to 2^48 rows: the estimates of Piatetsky-Shapiro and that of WRAcc are at least the quality of every refinement that covers some row, and the estimates of Piatetsky-Shapiro do not increase under refinement. So pruning with them never loses a subgroup because of rounding.",
  "all counts of a subgroup, of a refinement and of the data (up to 2^48 rows)", "rounding errors over all counts; tests only see a few", [S+"quality_measures/wracc_optimistic_estimate_1.py:WRAccOptimisticEstimate1.compute", S+"quality_measures/piatetsky_shapiro_optimistic_estimate_1.py:PiatetskyShapiroOptimisticEstimate1.compute", S+"quality_measures/piatetsky_shapiro_optimistic_estimate_2.py:PiatetskyShapiroOptimisticEstimate2.compute"])
p("Errors, ranges and identities of the measures in floating point",
  "With rounding, a measure raises an error on exactly the same dictionaries as in exact arithmetic and depends only on the parameters it needs; Support, Coverage, PPV, NPV, Sensitivity, Specificity, F1 and Qg are the float nearest to the exact value; every measure lies in the range it has in exact arithmetic, end points included (WRAcc and AbsoluteWRAcc on up to 2^24 rows); AbsoluteWRAcc is exactly the absolute value of WRAcc, and Youden and IRR are the rounded sums of Sensitivity, Specificity, PPV and -1.",
  "all dictionaries; for the ranges all natural counts", "rounding errors over all counts", [S+"quality_measures/wracc.py:WRAcc.compute", S+"quality_measures/youden.py:Youden.compute", S+"quality_measures/irr.py:IRR.compute", S+"quality_measures/ppv.py:PPV.compute"])
p("Accuracy, sign and order of the measures in floating point",
  "On natural counts of up to 2^53 rows the computed value differs from the exact one by at most 5*2^-53 (times the number of covered rows, or positives, for Piatetsky-Shapiro and the estimates). On up to 2^26 rows WRAcc and Piatetsky-Shapiro have the sign of the exact value (0 included); on up to 2^24 rows a greater exact value gives a greater computed one. Not guaranteed: equal exact values give equal computed ones (already false with 4 rows), and the sign on larger data (false with 105108978 rows).",
  "all natural counts up to the stated sizes", "rounding errors over all counts", [S+"quality_measures/wracc.py:WRAcc.compute", S+"quality_measures/piatetsky_shapiro.py:PiatetskyShapiro.compute"])
p("Searches in floating point",
  "With the measures and estimates as they are computed: VLSD on up to 2^48 rows ends without error and writes exactly the descriptions that occur and whose computed quality reaches the minimum (threshold of the estimate not above it), so for WRAcc everything whose exact quality is 5*2^-53 above the minimum and nothing 5*2^-53 below it; BSD, CBSD and CPBSD on up to 2^24 rows (fewer than 90000 for Piatetsky-Shapiro) report a subgroup whose exact quality is the greatest one. A subgroup whose exact quality equals the minimum may be left out.",
  "all nominal data sets up to the stated sizes, targets, thresholds and parameters", "rounding errors over unbounded searches", [S+"algorithms/subgroup_sets/vlsd.py:VLSD.fit", S+"algorithms/subgroup_sets/bsd.py:BSD.fit", S+"algorithms/subgroup_sets/sdmap.py:SDMap.fit"])
p("BinomialTest: when it is defined, range and sign",
  "On a dictionary with the four counts BinomialTest returns the value of its formula or raises: ZeroDivisionError or ValueError (square root of a negative number) exactly where a denominator is zero or a radicand negative, ParameterNotFoundError exactly when a count is missing (the estimate does not need fp). On the counts of a subgroup it is defined exactly when the data have positives and negatives and the subgroup covers some but not all rows (else ZeroDivisionError); then its absolute value is at most the square root of the number of rows, with equality exactly when the description separates positives from negatives, and its sign is that of WRAcc.",
  "all dictionaries; all natural counts", "all counts", [S+"quality_measures/binomial_test.py:BinomialTest.compute", S+"quality_measures/binomial_test_optimistic_estimate_1.py:BinomialTestOptimisticEstimate1.compute"])
p("Result files of the other algorithms under crashes and exceptions",
  "VLSD and SDMapStar: at every moment of fit, whatever has been flushed, the disk has the earlier file or a first part of the complete file; a run that returns leaves the file closed with exactly its lines (SDMapStar does not touch the file when no selector is frequent; behind the lines, what an earlier run that raised still had buffered shows as far as it is longer); a run that raises leaves everything as it was or the file open with exactly the lines of the accepted ones among the descriptions handled before, which are counted. VLSD opens its file before it looks up the target, so a missing target attribute empties the earlier file. SDIGA: the same, with one line per completed turn. BSD, CBSD, CPBSD, IDSD and QFinder.fit write at the end: a search that raises leaves the earlier file as it was, one that returns leaves exactly its lines. QFinder.test_subgroups with a file: when a reported pattern does not occur in the test data, it raises KeyError in the middle of the file, which stays open with the lines before that pattern and the beginning of its line.",
  "all data frames, targets, configurations, measures, random choices, flush schedules, crash points and histories", "all crash points and schedules", [S+"algorithms/subgroup_sets/vlsd.py:VLSD.fit", S+"algorithms/subgroup_sets/sdmapstar.py:SDMapStar.fit", S+"algorithms/subgroup_sets/sdiga.py:SDIGA.fit", S+"algorithms/subgroup_sets/bsd.py:BSD.fit", S+"algorithms/subgroup_sets/idsd.py:IDSD._to_file", S+"algorithms/subgroup_sets/qfinder.py:QFinder._to_file"])
p("The nodes of an FP-tree stay linked to each other",
  "In every tree that a client can have (a new one, one built from any dictionary of frequent selectors and any rows, and every conditional tree of such a tree, with or without the pruning of SDMapStar) children, parents, node links and header table agree: every node is in the dictionary of children of exactly its parent, under its selector; going up from any node ends at the root, and no two nodes have the same path; the header table has one entry per selector, and following the node links from the first node of the entry visits exactly the nodes with that selector, each once, in order of creation, ends at the last node of the entry, and the counters of these nodes add up to the summations of the entry. Building and conditioning never raise (no KeyError, no AttributeError on None, no duplicate child) and their loops end. SDMap.fit and SDMapStar.fit run on these objects do what the model that names a node by its path does, so every other property about them holds for the linked objects.",
  "all dictionaries, rows, thresholds, selectors, chains of conditionings, data frames, targets and configurations", "all shapes of trees, unbounded depth", [S+"data_structures/fp_tree_for_sdmap.py:FPTreeForSDMap", S+"data_structures/fp_tree_for_sdmapstar.py:FPTreeForSDMapStar", S+"data_structures/fp_tree_node.py:FPTreeNode", S+"algorithms/subgroup_sets/sdmap.py:SDMap.fit", S+"algorithms/subgroup_sets/sdmapstar.py:SDMapStar.fit"])
p("FP-trees are printed completely",
  "tree_as_str of any tree that a client can have (new, built, conditional, also with the pruning of SDMapStar) ends, prints every node on exactly one line, in depth-first order with the children in the order of insertion, at the depth that is the length of its path (no mark for the root, then four blanks per level and '|--- '), with its address, selector, counters, and the address of the next node with its selector or None. header_table_as_str prints one line per entry, with its selector and summations and exactly the nodes with this selector, in the order of the node links, and None; without follow_node_links, the first of them only.",
  "all trees a client can build or condition, all selector texts and addresses", "all shapes of trees, unbounded depth", [S+"data_structures/fp_tree_node.py:FPTreeNode.tree_as_str", S+"data_structures/fp_tree_node.py:FPTreeNode.__str__", S+"data_structures/fp_tree_for_sdmap.py:FPTreeForSDMap.tree_as_str", S+"data_structures/fp_tree_for_sdmap.py:FPTreeForSDMap.header_table_as_str"])
p("Both vertical lists print the same text",
  "Whatever is created and joined (with distinct row numbers in range), str() of the resulting vertical list gives its selectors in order and, ascending and each once, exactly the positive and the negative rows that all vertical lists it was made from have in common; the implementations with sets and with bitsets print the same text; and the text tells the rows: equal selectors and equal texts mean equal rows and equal texts of the quality value.",
  "all programs of constructors and joins, all quality measures and parameters", "all programs and sizes", [S+"data_structures/vertical_list_with_sets.py:VerticalListWithSets.__str__", S+"data_structures/vertical_list_with_bitsets.py:VerticalListWithBitsets.__str__"])
p("Row labels and the FP-growth algorithms",
  "With different row labels, of any kind and in any order, the results of SDMap and SDMapStar do not depend on the labels. Rows whose label occurs more than once are silently left out of the tree: SDMap (and SDMapStar without a limit) then evaluates, each once, descriptions of rows that have a label of their own, with tp and fp counted over these rows only and TP and FP over all rows, and every description that reaches the thresholds among them; if every label occurs at least twice nothing is found and nothing is written, whatever the data. No exception is raised for repeated labels.",
  "all nominal data frames, row labels, targets, thresholds, measures and states", "all data frames and indexes", [S+"data_structures/fp_tree_for_sdmap.py:FPTreeForSDMap.build_tree", S+"algorithms/subgroup_sets/sdmap.py:SDMap.fit", S+"algorithms/subgroup_sets/sdmapstar.py:SDMapStar.fit"])
p("Selector(...) under threads and garbage collection",
  "Whatever threads and the garbage collector do, a call Selector(a, op, v) ends with ValueError exactly for illegal arguments, and otherwise with an object that prints as asked (with exactly the fields asked for when names are plain) or with KeyError. KeyError needs a collection between the look-up and the access to the pool: without collections it never happens, with them even a single thread can get it. While the program holds the object returned and no thread is creating the same text, every call for this text returns this very object; a call that nobody interrupts is the constructor of C02. Two threads that ask at the same time can get two different equal objects.",
  "all schedules of calls, dictionary accesses, dropped references and collections, any number of threads", "all interleavings and collection points", [S+"core/selector.py:Selector.__new__"])
p("The only instance of each measure under threads",
  "Calling the class of a measure never returns None, always an object of exactly that class (for a subclass without a constructor of its own: of a class that shares the constructor), whatever the threads do. If no two calls overlap, in particular in one thread, all calls of the class return the same object. Once a call has returned and no other thread is in the middle of creating the instance, all later calls return this very object. Two threads whose first calls overlap can get two different objects.",
  "all schedules of calls, any number of threads and classes", "all interleavings", [S+"quality_measures/wracc.py:WRAcc.__new__", S+"quality_measures/support.py:Support.__new__", S+"credibility_measures/odds_ratio_stat.py:OddsRatioStatistic.__new__"])
p("Constructors accept exactly the documented arguments",
  "For arguments of any type: the constructor of SDMap, SDMapStar, VLSD, BSD (CBSD, CPBSD), IDSD, QFinder, SDIGA, GMSL, PSLD or DSLM returns an object exactly when every checked argument has its documented type (a bool is not an int, an int is not a float for SDIGA and the DSLM limits) and its value is in range, a path is given if results are to be written, and measure and estimate are a declared pair; the object remembers the arguments, the additional parameters without tp, fp, TP and FP, and the path only if results are to be written. Otherwise TypeError or ValueError as stated per class (types before values except in VLSD and the list algorithms), InconsistentMethodParametersError for the thresholds. Exceptions: nan passes all range checks; SDMapStar and BSD do not check the type of the estimate and of its parameters (AttributeError, or TypeError for a list), QFinder not those of the file arguments nor the number of subgroups.",
  "all tuples of Python values as arguments", "all types and values of all arguments", [S+"algorithms/subgroup_sets/sdmap.py:SDMap.__init__", S+"algorithms/subgroup_sets/sdmapstar.py:SDMapStar.__init__", S+"algorithms/subgroup_sets/vlsd.py:VLSD.__init__", S+"algorithms/subgroup_sets/bsd.py:BSD.__init__", S+"algorithms/subgroup_sets/idsd.py:IDSD.__init__", S+"algorithms/subgroup_sets/qfinder.py:QFinder.__init__", S+"algorithms/subgroup_sets/sdiga.py:SDIGA.__init__", S+"algorithms/subgroup_lists/gmsl.py:GMSL.__init__", S+"algorithms/subgroup_lists/psld.py:PSLD.__init__", S+"algorithms/subgroup_lists/dslm.py:DSLM.__init__"])
p("Several objects that write to one disk",
  "Whatever the interleaving of the runs of several algorithm objects (threads, processes) and whatever their buffers hand over: an object whose file nobody else writes to ends up, with its counters and its file, exactly as if it had been alone, so a run that returns leaves exactly its own lines, and files that belong to none of them are not touched. With the same path one after the other, the file has the lines of the last run that returned, provided its object had no file left open. It fails for objects with the same path when one of them raised (its file stays open, and its rest overwrites the lines of the other when it is thrown away) and when two run at the same time (the file has the lines of neither).",
  "all interleavings of events, flush schedules, paths, objects, data frames, targets and configurations", "all interleavings and schedules", [S+"algorithms/subgroup_sets/sdmap.py:SDMap.fit", S+"algorithms/subgroup_sets/vlsd.py:VLSD.fit", S+"algorithms/subgroup_sets/bsd.py:BSD.fit", S+"algorithms/subgroup_sets/idsd.py:IDSD._to_file", S+"algorithms/subgroup_lists/gmsl.py:GMSL.fit"])
p("The output path equal to the input path, or no input",
  "to_input_format_for_subgroup_list_algorithms with two paths writes the converted lines of the input and leaves all other files alone; with the same path twice it always empties the file and returns (0, 0); without the input it raises FileNotFoundError and writes nothing. GMSL, PSLD and DSLM with output path = input path, whatever the file held and whatever the buffering: fit returns, no candidate is read, and the file is replaced by a report with the requested number of empty lists; without the input, FileNotFoundError is raised after the output was emptied, and it stays open with the beginning of the report.",
  "all contents of the disk, paths, data frames, targets and flush schedules", "all file contents and schedules", [S+"utils/file_format_transformations.py:to_input_format_for_subgroup_list_algorithms", S+"algorithms/subgroup_lists/gmsl.py:GMSL.fit", S+"algorithms/subgroup_lists/gmsl.py:GMSL._load_candidates", S+"algorithms/subgroup_lists/psld.py:PSLD.fit", S+"algorithms/subgroup_lists/dslm.py:DSLM.fit"])
p("Selectors and patterns with nan, inf, -inf and -0.0",
  "With special float values in selectors or data: comparisons with nan are false except !=, infinities are below and above all numbers, -0.0 equals 0. The six comparison methods of selectors are one total order exactly when no column is compared both with texts and numbers by the same operator and none with nan. Patterns without nan behave as sets after every history, also with infinities and -0.0. A selector with nan is different from every selector including itself, is never found in or removed from a pattern, is kept and added as often as it is given, makes the pattern different from its own copy (but still its refinement), and can hide other selectors of the pattern. The text of a selector is read back as an equal selector exactly when the column name has no blank, a float shows a point and the value is neither nan nor infinite (these come back as texts, or raise ValueError under an order operator); equal selectors print the same exactly when they are the same, so -0.0 and 0.0 have different hashes.",
  "all selectors, columns, patterns and histories with values of type str, int and float, special floats included", "all values and histories", [S+"core/selector.py:Selector", S+"core/operator.py:Operator.evaluate", S+"core/pattern.py:Pattern"])
p("fit refuses wrong arguments, of any type, before it does anything",
  "For arguments of any type, fit gets past its checks exactly when the first argument is a DataFrame whose columns are all text (not empty, for GMSL, PSLD and DSLM) and the second a tuple whose first element is the name of a column, with a second element (SDMap, SDMapStar, VLSD, GMSL, PSLD, DSLM: of any type, and further elements are ignored; BSD, QFinder: exactly two elements; IDSD, SDIGA: a text that occurs in the target column, for SDIGA exactly two elements). Otherwise it raises TypeError, DatasetAttributeTypeError, ValueError, InconsistentMethodParametersError, KeyError or IndexError as the first failing check decides (SDIGA: DatasetAttributeTypeError for what is not a DataFrame), and the result file is still as it was, except that VLSD has already emptied it when the target tuple is too short or its column is missing. A target value that is not a text is accepted by SDMap, SDMapStar, VLSD, BSD, QFinder and the list algorithms and makes every row negative.",
  "all pairs of arguments of any type", "all types and values of both arguments", [S+"algorithms/subgroup_sets/sdmap.py:SDMap.fit", S+"algorithms/subgroup_sets/sdmapstar.py:SDMapStar.fit", S+"algorithms/subgroup_sets/vlsd.py:VLSD.fit", S+"algorithms/subgroup_sets/bsd.py:BSD.fit", S+"algorithms/subgroup_sets/idsd.py:IDSD.fit", S+"algorithms/subgroup_sets/qfinder.py:QFinder.fit", S+"algorithms/subgroup_sets/sdiga.py:SDIGA.fit", S+"algorithms/subgroup_lists/gmsl.py:GMSL.fit", S+"algorithms/subgroup_lists/psld.py:PSLD.fit", S+"algorithms/subgroup_lists/dslm.py:DSLM.fit"])
p("Row labels and is_contained, Subgroup.filter and filter_by_list_of_selectors",
  "On a data frame whose row labels are 0..n-1 in order (a default index) the results are those of C08 and C12. With any other different row labels, the Series returned by is_contained for a non-empty pattern has one entry for each label that is a row label or one of 0..n-1, and says True exactly for the labels of covered rows that are among 0..n-1: so it is right for every row iff each covered row has such a label, and has one entry per row iff the labels are 0..n-1 in some order. The first two Series of Subgroup.filter, and the numbers of true and false positives read off them, cover only the rows with a label among 0..n-1; the third is right. filter_by_list_of_selectors returns exactly the covered rows with a label among 0..n-1, and for an empty list raises an IndexingError unless all labels are among 0..n-1. With repeated labels the number of entries can double with each selector. The exceptions are those of C08.",
  "all data frames, different row labels of any kind in any order, patterns, subgroups and lists of selectors, and any order pandas gives the joined labels", "all data frames, indexes and patterns", [S+"core/pattern.py:Pattern.is_contained", S+"core/subgroup.py:Subgroup.filter", S+"utils/dataframe_filters.py:filter_by_list_of_selectors"])
p("Nested calls: how deep the recursive algorithms go",
  "The recursion of a fit is bounded by the number of columns c of the data (target included), never by the number of rows: if Python allows c+1 further nested calls (SDMap, SDMapStar), c-2 (VLSD), min(max_depth+1, c) (BSD, CBSD, CPBSD) or max_complexity+1, by default c (IDSD), fit returns or raises exactly as without a limit. With fewer, it does so too or raises RecursionError, and nothing else. A run of SDMap, SDMapStar or BSD with room for b nested calls that does not raise RecursionError has evaluated only descriptions with at most b selectors (b+2 for VLSD, b-1 for IDSD); so if some frequent description has more selectors (VLSD: some description all of whose parts reach the estimate) fit cannot return. The bounds are attained; for SDMap on every one-row data set whose full description is frequent.",
  "all nominal data frames, targets, configurations, states and recursion limits", "all data frames and recursion limits", [S+"algorithms/subgroup_sets/sdmap.py:SDMap._fpgrowth", S+"algorithms/subgroup_sets/sdmap.py:_generate_all_combinations", S+"algorithms/subgroup_sets/sdmapstar.py:SDMapStar._fpgrowth", S+"algorithms/subgroup_sets/vlsd.py:VLSD._search", S+"algorithms/subgroup_sets/bsd.py:BSD._BSD", S+"algorithms/subgroup_sets/idsd.py:IDSD._grow_tree"])
p("Vertical lists on any row numbers and arguments of any type",
  "VerticalListWithSets(...) succeeds exactly for arguments of the documented types whose elements are hashable; VerticalListWithBitsets(...) exactly for those with a number of rows >= 0 and elements that are indexes of this many rows (negative ones count from the end); otherwise TypeError, ValueError or IndexError as the first failing check decides. tp and fp are then the lengths of the arguments, repetitions included. Whatever program builds vertical lists, joins them and assigns quality values: the rows of the result are those in every list that entered it, and, if all elements were row numbers 0..n-1 (repeated, in any order), the two implementations give the same results and the same exceptions. With bitsets a negative index always behaves as the row it stands for. The implementations differ on negative indexes and on numbers out of range. join and compute_quality_value refuse arguments of a wrong type with TypeError, join also a measure whose value is neither int nor float, and use tp and fp of the list whatever the dictionary says.",
  "all programs of constructor calls, joins and assignments, all arguments", "all programs and arguments", [S+"data_structures/vertical_list.py:VerticalList.__init__", S+"data_structures/vertical_list_with_sets.py:VerticalListWithSets", S+"data_structures/vertical_list_with_bitsets.py:VerticalListWithBitsets"])
p("The order of the rows and of the columns does not matter",
  "If the data frame df' has the rows and the columns of df in another order, then on df': SDMap and SDMapStar with num_subgroups = 0 succeed exactly when they do on df and write the same lines with the same counters (only the order of the lines may differ); VLSD, with an estimate that suits the measure and a minimum estimate not above the minimum quality, writes the same subgroups with the same values, and the row sequences renumbered; BSD, CBSD and CPBSD report the same best quality and IDSD (no limit on categories) a best subgroup of the same rank and odds ratio; QFinder gives the same result in the same order when candidates of the same size and rank have different p-values; GMSL, PSLD and DSLM, given the same candidates with their bits in the new order of the rows, build the same subgroup lists and write the same output file character by character; SDIGA, with the same random numbers and the columns in the same order, gives the same subgroups, counters and lines. Which of several equally good subgroups BSD, CBSD, CPBSD, IDSD and QFinder report does depend on the order of the columns; so does what VLSD writes when the minimum estimate is above the minimum quality.",
  "all data frames, permutations of rows and columns, targets and configurations", "all permutations of all data sets", [S+"algorithms/subgroup_sets/sdmap.py:SDMap.fit", S+"algorithms/subgroup_sets/sdmapstar.py:SDMapStar.fit", S+"algorithms/subgroup_sets/vlsd.py:VLSD.fit", S+"algorithms/subgroup_sets/bsd.py:BSD.fit", S+"algorithms/subgroup_sets/idsd.py:IDSD.fit", S+"algorithms/subgroup_sets/qfinder.py:QFinder.fit", S+"algorithms/subgroup_sets/sdiga.py:SDIGA.fit", S+"algorithms/subgroup_lists/gmsl.py:GMSL.fit", S+"algorithms/subgroup_lists/psld.py:PSLD.fit", S+"algorithms/subgroup_lists/dslm.py:DSLM.fit"])
p("Stricter thresholds only remove lines, more columns only add lines",
  "With the same measure and stricter thresholds (higher minimum quality, stricter minimum counts) SDMap and SDMapStar with num_subgroups = 0 still succeed and write exactly those of the lines that meet the stricter thresholds; so does VLSD for the minimum quality, when its estimate suits the measure. With additional columns in the data (and any order of rows and columns) the lines whose descriptions use only the original columns are exactly the lines written without the additional columns, with the same counts and qualities.",
  "all data frames, pairs of configurations, additional columns", "all data sets and configurations", [S+"algorithms/subgroup_sets/sdmap.py:SDMap.fit", S+"algorithms/subgroup_sets/sdmapstar.py:SDMapStar.fit", S+"algorithms/subgroup_sets/vlsd.py:VLSD.fit"])
p("The random draws of SDIGA are always legal, and every legal choice can be drawn",
  "Whatever numbers numpy.random delivers (rand in [0,1), randint below its bound, two different positions), the draws of SDIGA are legal: populations of the requested size whose genes stand for a value of their attribute or for its absence, crossover points inside the chromosome in ascending order, mutated genes in range. So, whatever the seed, fit with at least two attributes, an occurring target and weights that are not all zero ends without an exception and reports only rules that reach the minimum confidence, none of which repeats or refines another. Conversely every sequence of legal choices is made for some random numbers, (the constructor asks for probabilities strictly between 0 and 1): nothing the algorithm may choose is out of its reach. With randint including its bound, decoding a chromosome could raise.",
  "all sequences of random numbers, data frames, targets and configurations", "all random sequences", [S+"algorithms/subgroup_sets/sdiga.py:_generate_population", S+"algorithms/subgroup_sets/sdiga.py:SDIGA._perform_crossover", S+"algorithms/subgroup_sets/sdiga.py:SDIGA._perform_mutation", S+"algorithms/subgroup_sets/sdiga.py:SDIGA.fit"])
p("The names of columns and values do not matter",
  "If the columns and, within each column, the values get other names, different ones for different ones, then on the renamed data with the renamed target: every renamed description covers the same rows; SDMap and SDMapStar with num_subgroups = 0 succeed exactly when they did and write exactly the renamed lines, with the same qualities, counts and counters (selectors in the alphabetical order of the new names; only the order of the lines may differ); so does VLSD, when the estimate suits the measure and its threshold is not above that of the quality; BSD, CBSD and CPBSD report the same best quality. Condition for SDMap, SDMapStar and BSD: before and after, the texts by which they identify selectors are different. GMSL, PSLD and DSLM, given candidates with the renamed descriptions, build the same lists renamed, or raise the same exception. SDIGA (no attribute called fitness before or after, at most 65535 values per attribute): every run has a corresponding run on the renamed data, with other random choices of equal sizes, that ends in the renamed subgroups, lines and counters, in the same order, or raises the same exception, or goes on equally long; if the new names of the values are in the same order as the old ones, the same random choices do. IDSD and QFinder, when no column has more values than the category limit (else ties between equally frequent values may be broken by the names) and, for QFinder, the printed selectors can be read back before and after: the same exception, or the renamed descriptions evaluated in the same order, the renamed result in the same order with the same ranks, odds ratios and credibility values, and for IDSD the same counters.",
  "all data frames, injective renamings, targets and configurations", "all renamings of all data sets", [S+"algorithms/subgroup_sets/sdmap.py:SDMap.fit", S+"algorithms/subgroup_sets/sdmapstar.py:SDMapStar.fit", S+"algorithms/subgroup_sets/vlsd.py:VLSD.fit", S+"algorithms/subgroup_sets/bsd.py:BSD.fit", S+"algorithms/subgroup_lists/gmsl.py:GMSL.fit", S+"algorithms/subgroup_sets/sdiga.py:SDIGA.fit", S+"algorithms/subgroup_sets/qfinder.py:QFinder.fit", S+"algorithms/subgroup_sets/idsd.py:IDSD.fit", S+"core/pattern.py:Pattern"])
p("Copies of all rows only scale the counts",
  "If every row is repeated k times (rows and columns in any order), each description has k times as many positives and negatives. With the minimum counts multiplied by k, SDMap and SDMapStar with num_subgroups = 0 write the same descriptions with the counts multiplied by k, and so does VLSD (estimate suiting the measure); BSD, CBSD and CPBSD report the same best quality. The qualities do not change for Support, Coverage, WRAcc, AbsoluteWRAcc, PPV, NPV, Sensitivity, Specificity, F1Score, IRR and Youden; they and the estimates are multiplied by k for PiatetskyShapiro, its two estimates and the estimate of WRAcc (then the minimum quality is to be multiplied too); Qg has no such factor.",
  "all data frames, numbers of copies, orders, targets and configurations", "all data sets and multiplicities", [S+"algorithms/subgroup_sets/sdmap.py:SDMap.fit", S+"algorithms/subgroup_sets/sdmapstar.py:SDMapStar.fit", S+"algorithms/subgroup_sets/vlsd.py:VLSD.fit", S+"algorithms/subgroup_sets/bsd.py:BSD.fit", S+"quality_measures/wracc.py:WRAcc.compute", S+"quality_measures/wracc_optimistic_estimate_1.py:WRAccOptimisticEstimate1.compute", S+"quality_measures/qg.py:Qg.compute"])
p("The bit-array dictionaries of BSD are maps from patterns",
  "After any history of d[k] = v on a BitsetDictionary (also refused ones), with selectors whose names have no blank and whose texts have no ', ': d[k] is the value of the last assignment to that pattern, KeyError if there is none, and k in d says whether there is one; a selector stands for the pattern with only that selector. Iteration yields the stored patterns once each, in order of their first assignment, when their texts can be read back. Wrong keys and values are refused with TypeError and nothing changes. The inherited d.get finds nothing for a selector and raises for a pattern. build_bitset on an object with any history stores exact bits for the selectors asked for, sets the two totals, and keeps every other entry, even if it belongs to other data; its checks and those of generate_set_of_frequent_selectors, for arguments of any type.",
  "all histories of assignments, all keys and values, all objects with any history, all nominal data sets with different texts, all arguments", "unbounded histories", [S+"data_structures/bitset_bsd.py:BitsetDictionary", S+"data_structures/bitset_bsd.py:BitsetBSD.build_bitset", S+"data_structures/bitset_bsd.py:BitsetBSD.all_true_positives"])
p("Comparisons, membership, hashing and construction with objects of any type",
  "a == b, where a or b is an operator, selector, pattern or subgroup, is defined exactly when both are of the same of these classes, otherwise a TypeError, also when the library object is on the right; == is reflexive and symmetric (errors included) and != is its negation. Order comparisons are defined exactly between two texts, numbers, operators or selectors, and a < b is b > a, a <= b is b >= a. Operators compare by their positions (=, !=, <, >, <=, >=), numbers by value, texts as texts, selectors by attribute name, operator and value. x in l, for a list l of any objects, is true if an equal element comes before every element that cannot be compared, a TypeError if one that cannot comes first. Patterns and subgroups cannot be hashed, so never be keys or members of sets. A selector and its own text, or an operator and the number of its position, cannot both be keys of one dictionary, whatever the hash functions; among keys that can be compared a look-up does not fail and finds exactly the equal ones with the same hash. A set made from such keys does not fail, contains no two that are equal with the same hash, and for each of them one that is. Pattern(l) does not check the elements: it succeeds exactly for lists of at most one object of any kind and for lists of only selectors, only texts, only numbers or only operators, with a TypeError otherwise. add_selector, remove_selector and in on a pattern refuse all but selectors; on a non-empty pattern of other objects they always fail. Subgroup(d, t) succeeds exactly for a pattern and a selector. is_refinement of a pattern or subgroup asked about anything else raises AttributeError.",
  "all pairs and lists of objects, all hash functions", "all objects and lists", [S+"core/operator.py:Operator.__eq__", S+"core/selector.py:Selector.__eq__", S+"core/selector.py:Selector.__hash__", S+"core/pattern.py:Pattern.__init__", S+"core/pattern.py:Pattern.add_selector", S+"core/pattern.py:Pattern.__contains__", S+"core/subgroup.py:Subgroup.__init__"])
p("An object whose fit raised or was interrupted can be used again",
  "QFinder: a fit that raises leaves the top patterns of the last fit that returned, and after any sequence of fits, exceptions caught, top_patterns are those of a new object after the last one that returned; unselected_subgroups, however, can be wrong (even negative) after a caught exception. The next fit succeeds or raises as on a new object, with the same results. IDSD: after any history of fits that returned, were refused or were interrupted at any point (Ctrl-C), on data with at least as many rows, fit evaluates the same patterns and gives the same list as on a new object. SDIGA: whatever state the object is in, fit with the same random choices ends (or raises, or goes on) as on a new object, with the same subgroups and the same file. The counters go on from where they were. (SDMap, SDMapStar and VLSD: see C35, for any state.)",
  "all histories of calls and interruptions, all states, data frames, targets, configurations", "all interruption points and histories", [S+"algorithms/subgroup_sets/qfinder.py:QFinder.fit", S+"algorithms/subgroup_sets/idsd.py:IDSD.fit", S+"algorithms/subgroup_sets/idsd.py:IDSD._generate_selectors", S+"algorithms/subgroup_sets/sdiga.py:SDIGA._SDIGA"])
p("QFinder and texts that cannot be read back",
  "QFinder writes its patterns as texts and reads them back. If a column other than the target has a name whose second word is not the text of an operator ('blood pressure'), fit raises on every nominal data set with that column and at least one row, for every configuration with cats = -1 or cats >= 2. If a value of such a column has a comma and a blank with no blank after them ('left, upper'), fit raises too (when the column is not limited by cats). When a name with a blank can be read, something else may be read: fit can return patterns on an attribute that the data do not have.",
  "all nominal data frames, names, values, configurations and states", "all names, values and data", [S+"data_structures/bitset_qfinder.py:Bitset_QFinder.generate_bitset", S+"data_structures/bitset_qfinder.py:Bitset_QFinder.compute_credibility_measures", S+"core/pattern.py:Pattern.generate_from_str", S+"algorithms/subgroup_sets/qfinder.py:QFinder.fit"])
p("The limits of floats do not matter for counts",
  "Every float operation of the quality measures rounds to the nearest binary64 number (53 digits, exponents from -1074 to 971), ties to even, infinite from 2**1024 - 2**970 on, an OverflowError where Python converts or divides integers. For every dictionary of integers of at most 2**256 in absolute value nothing is out of range: no OverflowError, no infinite value, no loss of digits in subnormal numbers, and the value, or the exception, is the one of unlimited exponents, for which C74-C77 are stated; so too BinomialTest and BinomialTestOptimisticEstimate1 (C106), where the square root of a float is always the nearest float. For larger integers it does matter: Qg, PiatetskyShapiro and BinomialTestOptimisticEstimate1 can raise OverflowError, Support can be 0.0 although rows are covered.",
  "all rational numbers (rounding), all dictionaries of integers up to 2**256, all 18 measures", "all numbers", [S+"quality_measures/wracc.py:WRAcc.compute", S+"quality_measures/qg.py:Qg.compute", S+"quality_measures/piatetsky_shapiro.py:PiatetskyShapiro.compute", S+"quality_measures/f1_score.py:F1Score.compute", S+"quality_measures/irr.py:IRR.compute", S+"quality_measures/binomial_test.py:BinomialTest.compute", S+"quality_measures/binomial_test_optimistic_estimate_1.py:BinomialTestOptimisticEstimate1.compute"])
p("How much work a search can do",
  "On a nominal data frame with r rows and m columns besides the target, one fit of SDMap, SDMapStar (with any num_subgroups) or VLSD evaluates at most r*(2**m - 1) descriptions, counted by selected_subgroups + unselected_subgroups; BSD, CBSD and CPBSD visit at most r times the number of non-empty sets of at most max_depth + 1 of the m columns, and IDSD and QFinder compute credibility values for at most r times the number of sets of at most max_complexity columns; however many values the columns have and whatever the thresholds. The bound is reached. The FP-tree has at most r*m nodes besides the root, a conditional FP-tree at most as many as the nodes of its selector have proper ancestors.",
  "all nominal data frames, targets, configurations, states", "all data sets and configurations", [S+"algorithms/subgroup_sets/sdmap.py:SDMap.fit", S+"algorithms/subgroup_sets/sdmapstar.py:SDMapStar.fit", S+"algorithms/subgroup_sets/vlsd.py:VLSD.fit", S+"algorithms/subgroup_sets/bsd.py:BSD.fit", S+"algorithms/subgroup_sets/idsd.py:IDSD.fit", S+"algorithms/subgroup_sets/qfinder.py:QFinder.fit", S+"data_structures/fp_tree_for_sdmap.py:FPTreeForSDMap.build_tree", S+"data_structures/fp_tree_for_sdmap.py:FPTreeForSDMap.generate_conditional_fp_tree"])
p("Floats can be thought of as the decimals that are printed",
  "A float in a selector or a cell is a binary number; what one sees is its repr. For finite floats and for integers below 2**53 in absolute value all six operators give the same answer (or TypeError) on the values and on the decimal numbers printed: different floats are printed differently and in the same order, an integral float below 2**53 is printed as this integer, and reading the printed text gives the float again. numpy's conversion of an integer column to float before a comparison changes nothing either. This holds for every repr that prints a decimal with as few digits as possible that is read back as the same float. Beyond 2**53 it fails: the float printed as 1e+23 is not equal to the integer 10**23.",
  "all finite floats, all integers below 2**53, all texts, all operators, all shortest round-trip repr functions", "all numbers", [S+"core/operator.py:Operator.evaluate", S+"core/selector.py:Selector", S+"core/selector.py:Selector.generate_from_str"])
p("BinomialTest in floating point",
  "BinomialTest and BinomialTestOptimisticEstimate1 as computed with IEEE 754 floats (each operation and square root correctly rounded), on the counts of a subgroup. With fewer than 2**54 rows BinomialTest is defined exactly when the data have positives and negatives and the subgroup covers some rows but not all of them, as with exact arithmetic, otherwise ZeroDivisionError; with 2**54 rows this fails. Its sign is that of the computed WRAcc and, up to 2**26 rows, that of the exact value. Up to 2**43 rows N its error is at most (16 + 2 N / FP) * 2**-53 times the factor by which the difference of the shares is multiplied. The estimate is defined exactly when there are rows, is not negative, does not grow when the subgroup is refined, and is within 5 * 2**-53 * sqrt(tp) of the exact one up to 2**53 rows.",
  "all counts of subgroups", "all numbers", [S+"quality_measures/binomial_test.py:BinomialTest.compute", S+"quality_measures/binomial_test_optimistic_estimate_1.py:BinomialTestOptimisticEstimate1.compute"])
p("SDIGA in floating point",
  "SDIGA with every quotient, product, sum and difference rounded (exact numbers, floats with unlimited exponents, or binary64 with subnormal numbers; weights that are floats). Whatever the random choices: fit ends after at most as many turns as there are rules, plus one; the rules returned are pairwise different, none refined by a later one, and the calculated confidence of each is at least min_confidence; counters and file are as with exact numbers, with the calculated fitness; the calculated fitness of each rule is at least that of every individual of the first population of its turn; local search ends with a generalisation whose calculated support and confidence are not lower and which cannot be improved by dropping a condition. Up to 2**26 rows rounding changes no comparison of supports or confidences, so this also holds of the exact supports and confidences. With a float min_confidence, a rule whose exact confidence reaches it is never refused, and a rule returned reaches it up to a relative error of 2**-53; that it reaches it exactly fails (4 of 5 rows with min_confidence = 0.8). The calculated fitness has a relative error of at most 6 * 2**-53.",
  "all roundings that keep the order, data frames, targets, configurations, random choices, states", "all numbers, data sets and random choices", [S+"algorithms/subgroup_sets/sdiga.py:SDIGA.fit", S+"algorithms/subgroup_sets/sdiga.py:SDIGA._local_search", S+"algorithms/subgroup_sets/sdiga.py:SDIGA._fitness_evaluation", S+"algorithms/subgroup_sets/sdiga.py:_calculate_support", S+"algorithms/subgroup_sets/sdiga.py:_calculate_confidence"])
p("Subgroup lists in floating point",
  "GMSL, PSLD and DSLM on a machine with rounding errors. Whatever the arithmetic, provided > is a strict order on its numbers: fit ends with max_sl lists (without exception if the candidates fit the data); no line of the candidate file is used more often than it appears; no subgroup refines one chosen before (PSLD, DSLM: none refines or generalises another); sizes are limited; the subgroups of PSLD and DSLM cover new positives; every subgroup added has the first largest positive computed gain among the candidates left. If every operation has a relative error of at most u <= 1/16, the computed gain of a candidate with m selectors differs from the exact one by at most ((1+u)**(m+7) - 1) times the size of its terms (DSLM: m + 13 and 4 times the size); gains that are infinite or not numbers are computed as such; so the lists obey the exact rule up to this error: a subgroup added has exact gain above -e, no candidate left was better by more than 2e, and a list ends only when no candidate left has gain above e. Data with one class only still give empty lists, and the overlaps of DSLM exceed their limits by a factor of at most 1/(1-u). With exact arithmetic the computed gain is the one of C41.",
  "all arithmetics (numbers and operations), data frames, targets, candidates, configurations", "all numbers, data sets and candidates", [S+"algorithms/subgroup_lists/gmsl.py:GMSL.fit", S+"algorithms/subgroup_lists/gmsl.py:GMSL._compute_delta_data_model_candidate", S+"algorithms/subgroup_lists/gmsl.py:GMSL._compute_delta_model_candidate", S+"algorithms/subgroup_lists/psld.py:PSLD.fit", S+"algorithms/subgroup_lists/dslm.py:DSLM.fit", S+"algorithms/subgroup_lists/dslm.py:DSLM._compute_positive_overlap_factor"])
p("IDSD and the odds ratio in floating point",
  "IDSD with every quotient and every difference of floats rounded (exact numbers, floats with unlimited exponents, or binary64 with subnormal numbers on up to 2**1074 rows). fit succeeds; the list has at most num_subgroups different subgroups, ordered by the calculated rank and odds ratio; each describes rows of the searched data with at most max_complexity selectors and carries the calculated credibility values and rank; a reported subgroup that refines another is not better; no description within max_complexity is better than the first one by the calculated values; each pattern is evaluated at most once, and every one reaching the coverage threshold is; earlier fits on data with at least as many rows change nothing but the counters. The contribution is the least rounded difference of calculated odds ratios and the ratio the rounded quotient of the greatest by the least. The calculated odds ratio is never negative nor not-a-number, and more true positives and fewer false positives never lower it; for floats its relative error is at most 2**-51, it orders subgroups with different odds ratios correctly on up to 8192 rows, and it decides a threshold m/k correctly when the counts and m, k are small enough and the exact odds ratio is not equal to the threshold; equal odds of 1 are calculated as 1. At a threshold met with equality the decision, and so the list, may differ from the exact one (3 of 4 rows with the target and 5 of 10 without it, threshold 3).",
  "all roundings that keep the order, data frames, targets, configurations, histories, counts", "all numbers, data sets and histories", [S+"algorithms/subgroup_sets/idsd.py:IDSD.fit", S+"algorithms/subgroup_sets/idsd.py:IDSD._handle_individual_result", S+"algorithms/subgroup_sets/idsd.py:IDSD._grow_tree", S+"credibility_measures/odds_ratio_stat.py:OddsRatioStatistic.compute", S+"credibility_measures/selector_contribution.py:SelectorContribution.compute", S+"quality_measures/coverage.py:Coverage.compute"])
p("QFinder in floating point",
  "QFinder with rounding: the coverage, the differences and the quotient of odds ratios in the selector contribution, the Bonferroni-adjusted p-value and odds ratio + delta are rounded; the odds ratio and p-value of a description are those of the fitted GLM. Whatever the rounding: fit reports the same candidates as with exact numbers; top_patterns has at most num_subgroups different patterns with fewer selectors first, then by calculated rank and p-value, each with its calculated values; a reported refinement exceeds the calculated odds ratio + delta; every candidate that is missing, and every pattern that stays, has the reason C38 gives, in the calculated values; unselected_subgroups, test_subgroups and the files agree with this. For a rounding that keeps the order the calculated contribution is the rounded exact one, and with thresholds that are floats every criterion (contribution ratio excepted) that holds exactly holds of the calculated values, so the calculated rank is at least the exact one if that is at most 4, and at least 3 otherwise. With floats, a reported refinement exceeds delta also exactly. The converses fail: an excess over delta can be lost (odds ratios 1 and 1 + 2**-52, delta 3 * 2**-54), and coverage 4/5 reaches the threshold 0.8 only as calculated.",
  "all rounding functions, data frames, targets, configurations, GLM results, states", "all numbers, data sets and configurations", [S+"algorithms/subgroup_sets/qfinder.py:QFinder.fit", S+"algorithms/subgroup_sets/qfinder.py:QFinder._select_top_k", S+"algorithms/subgroup_sets/qfinder.py:QFinder._rank_patterns", S+"algorithms/subgroup_sets/qfinder.py:QFinder.test_subgroups", S+"data_structures/bitset_qfinder.py:Bitset_QFinder.compute_credibility_measures", S+"credibility_measures/selector_contribution.py:SelectorContribution.compute"])
p("The MDL functions in floating point",
  "universal_code_for_integer and the multinomial functions on a machine whose operations and literals have a relative error of at most u (no overflow). With u <= 10**-8 and 20*u*L**2 <= 1 the loop of universal_code_for_integer(n) ends and what is returned differs from the exact code length L by at most the threshold 10**-6 plus 20*u*L**2; without the threshold if no iterated logarithm of n is within 20*u of it. multinomial_with_recurrence(L, n) has a relative error of at most 10**-10 plus that of 2*ceil(2 + sqrt(20*n*ln 10)) + 2*L + 3 roundings, compared with the exact stochastic complexity, although the number of turns is computed with errors too; log2_multinomial_with_recurrence accordingly. With u <= 2**-50 and fewer than 2**40 rows the code length and the logarithm of the complexity for two categories have a relative error of at most 10**-6. Zero, one category, no samples and illegal arguments are exact. universal_code_for_integer_with_maximum(n, max) differs from the exact code length M of C46 by at most 2*d*(1 + 2**M/max) + u*|M| with d = e + 7*u + 2*w (if d*(1 + 2**M/max) <= 1/8), where e bounds the errors of the universal codes of 1..max and w is the relative error of the sum of max numbers (that of max roundings if they are added one after the other); by at most 1/20000 for u <= 2**-50, w <= 2**-28 and max < 2**40. Without errors these are the functions of C46.",
  "all integers, categories, samples, arithmetics", "all numbers", [S+"utils/mdl.py:universal_code_for_integer", S+"utils/mdl.py:multinomial_with_recurrence", S+"utils/mdl.py:log2_multinomial_with_recurrence"])
p("The caches of the MDL functions",
  "universal_code_for_integer, universal_code_for_integer_with_maximum and log2_multinomial_with_recurrence remember the last 1000 different calls that returned. After any history of calls, with any integers, booleans and floats, by position or by name: with arguments of type int each gives or raises what it does without a cache; whatever the arguments, a call gives the value of an earlier call with the same names and equal numbers if that call is among the last 1000 different ones that returned, and else what it does without a cache. So with a float or a boolean log2_multinomial_with_recurrence raises TypeError or gives the value for the equal integers, depending on the history (log2_multinomial_with_recurrence(2.0, 5) raises in a new process and gives a value after (2, 5)); universal_code_for_integer by position always refuses them. universal_code_for_integer_with_maximum never gives another value than without a cache, only a value instead of TypeError. A cache never holds more than 1000 entries.",
  "all histories of calls, arguments", "all histories", [S+"utils/mdl.py:universal_code_for_integer", S+"utils/mdl.py:universal_code_for_integer_with_maximum", S+"utils/mdl.py:log2_multinomial_with_recurrence"])
p("The limit on the digits of integers",
  "Python limits integers in texts to a number of digits (4300 by default, sys.set_int_max_str_digits; 0 for none). For every limit: Selector(a, op, v) raises ValueError when v is an int with more digits (and, as always, when v is a text and op is no equality or inequality) and makes the selector in all other cases; str of every selector made succeeds, and Selector.generate_from_str reads it as without a limit (so C05 holds as it stands). Selector.generate_from_str reads an unquoted integer literal with more digits than the limit (zeros in front count, underscores do not) as a text value, which needs = or != (ValueError else); every other text is read as without a limit. Floats are not limited.",
  "all texts, arguments and limits", "all texts and limits", [S+"core/selector.py:Selector.__new__", S+"core/selector.py:Selector.generate_from_str"])
p("Decimal literals are read as the nearest float",
  "Selector.generate_from_str of 'a op t' with t an unquoted decimal literal with a point (C71) of the number q: all six operators are accepted and the value is the binary float nearest to q, the even one if there are two (0.1 and 0.10000000000000001 give equal selectors); it is inf from 2^1024 - 2^970 on and -inf below the negative of that; a literal with a minus sign that is rounded to zero gives -0.0. Everything else, failures included, is read as C71 says. str of a selector that has been read is read again as the same selector, unless its value is infinite or a float printed without a point. A pattern with any history over such selectors (also with integers, texts and -0.0) is read back from its str as an equal pattern, and a subgroup as an equal subgroup, when no selector prints ', ' and neither description nor target prints ', Target: '. Two such literals in the range give equal values exactly when they have the same nearest float. For a literal of at most 15 significant digits, zero or at least 2^-1021 in size and below the overflow limit, the value is printed as exactly the number written, so that C05, C71 and C89 hold of it without rounding.",
  "all texts, attribute names without a blank, operators, decimal literals, and all functions repr that print a shortest decimal number read back as the same float", "all texts and floats", [S+"core/selector.py:Selector.generate_from_str", S+"core/selector.py:Selector.__str__", S+"core/pattern.py:Pattern.generate_from_str", S+"core/subgroup.py:Subgroup.generate_from_str"])
with open("/verif/properties.jsonl","w") as f:
    for x in P: f.write(json.dumps(x, ensure_ascii=False)+"\n")
print(len(P))
