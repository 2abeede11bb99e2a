# DESIGN - formal model of antoniolopezmc/subgroups in Lean 4

## Layout

* `lean/Verif/Model/*.lean` - the model: executable, total Lean functions that mirror the Python
  functions branch by branch. Every definition cites `/repo` file and lines. Nothing is proved there
  except what a definition needs (termination).
* `lean/Verif/Spec/*.lean` - small independent specifications (what coverage, support, "occurs in the
  data", "sorted", ... mean), written without the model's helpers.
* `lean/Verif/Lemmas/*.lean` - helper lemmas.
* `lean/Verif/Props/*.lean` - the property theorems (named in MANIFEST.json), each with an `example`
  that its hypotheses are met by a concrete non-trivial case.
* `properties.jsonl` (generated by `tools/gen_properties.py`), `MANIFEST.json`, `seeded/LOG.jsonl`.

## Modelling conventions (the trusted reading of the code)

* Python `str` is `List Char`; `int` is `Int`/`Nat`. Python `float` *values inside selectors* are exact
  finite decimals with Python's `repr` notation; *quality values* are exact rationals `Rat` (with the rounding of each
  operation in C74-C77: `Model/Float64`)
  (reals where a square root or a logarithm occurs). Rounding, `nan`, `inf`, `-0.0` (in selectors: C89) are not modelled
  unless a theorem says so. C105 shows when the decimals of selectors may stand for the binary floats, C114 how literals become floats,
  C113 what the limit on the digits of integers changes, C103-C111 what rounding changes.
* A pandas `DataFrame` is a list of columns (name, values) with the default `RangeIndex` (other row labels: C83, C91); a pandas
  boolean `Series` and a `bitarray` are `List Bool`. `groupby` is "sorted distinct values".
  Duplicate column labels and missing values are not modelled (the code documents them unsupported).
* Exceptions are values: `Except PyErr a`.
* Mutable objects become state passed and returned. Python `dict` is an insertion-ordered
  association list. `list.sort`/`sorted` with a key is stable sorting.
* Argument *type* checks (`type(x) is not ...: raise TypeError`) are discharged by Lean's types and not
  modelled (but see C86 for constructors and C90 for `fit`), except where a value-level check decides behaviour.
* Files: the sequence of text lines written / read.
* Random numbers (SDIGA): an arbitrary oracle supplies every random choice. C96: the oracle is replaced by any generator whose `rand()` is in [0,1), whose `randint(0, n)` and `choice(range(n))` are below n, and whose `choice(range(n), 2, replace=False)` gives two different positions below n.

## Trusted base

Lean 4.33.0 kernel; axioms `propext`, `Classical.choice`, `Quot.sound` only (checked with
`#print axioms`); the faithfulness of the model to the text of `/repo` (the code was not run);
pandas/numpy/bitarray primitives behave as in the conventions above.

Not modelled: matplotlib/pandas printing, the iteration of the GLM fit (statsmodels; its result is taken to be a maximum-likelihood estimate with its Wald test), floating-point rounding outside C74-C77 (there: the 16 measures without square roots, IEEE 754 binary64 rounding to nearest, ties to even, with an unlimited exponent range, C103: with the limits of binary64, BinomialTest and its estimate included; C106: BinomialTest and its estimate with correctly rounded square roots; C107-C110: SDIGA, the subgroup lists, IDSD with the odds ratio and QFinder with each operation rounded; C111: the MDL functions with a relative error per operation and literal; elsewhere the measures with square roots, and all with logarithms or distribution functions, are exact reals),
file-system failures, `datasets/`, getters/properties without logic.

## Properties and how they are proved

| id | model | proof / status plan |
|----|-------|---------------------|
| C01 | `Model/Operator` | case analysis; total order by value |
| C02 | `Model/Selector` pool: state = live dictionary, ops = construct / collect | invariant "entry under key k has key k, keys distinct"; exact condition (iff) in `C02_exact`; unrestricted claim false (key collision witness) |
| C03 | `Model/Selector` | exact condition (iff) in `C03_exact`: not an int and a float |
| C04 | `Model/Selector` | exact condition (iff) on the typing of columns in `C04_exact` (3-cycle witness otherwise); complement laws for all |
| C05 | `Model/Selector` parse/print | exact condition (iff) in `C05_iff` |
| C06, C07 | `Model/Pattern` (Python's binary-insertion sort, bisect) | refinement to finite sets by induction over operation histories; exact condition (iff) on the typing of columns in `C06_exact`, `C07_exact`; every stable sort gives the same pattern, for lists of any length (`C06_any_sort`) |
| C08 | `Model/Pattern.isContained` | loop invariant; equality with row-wise `all`; exact condition of each exception in `C08_exact` |
| C09, C10 | `Model/Pattern`, `Model/Subgroup` | set inclusion; antitone coverage for all frames |
| C11 | `Model/Pattern`, `Model/Subgroup` printing/parsing | exact conditions (iff) in `C11_pattern_exact`, `C11_subgroup_exact`: pieces of a split contain no separator, count of pieces |
| C12 | `Model/Subgroup.filter` | pointwise boolean algebra |
| C13-C15 | `Model/Quality` over dictionaries with exact rationals | field arithmetic |
| C16 | `Model/Quality` | inequality for all counts of refinements |
| C17 | `Model/Quality` (reals for sqrt) | false as implemented; exact condition (iff) in `C17_exact`; `C17_bound` bounds the unscaled statistic |
| C18, C19 | `Model/FPTree` (arena of nodes keyed by path, header table; C80 shows that the linked node objects do the same) | invariants over insertions; conditional support identity |
| C20 | `Model/VerticalList` | refinement of sets and bitsets to instance predicates |
| C21, C22 | `Model/SubgroupList` | invariant by induction over histories |
| C23-C25 | `Model/SDMap` | FP-growth correctness: induction on recursion depth |
| C26-C28 | `Model/SDMapStar` | same theorem for k=0; top-k invariant; C28 false (witness) |
| C29, C30 | `Model/VLSD` | induction on search; pruning soundness from antitone estimate |
| C31-C34, C53, C54 | `Model/BSD`, `Spec/BSD` | invariants over candidate histories (`Lemmas/BSD*`), transferred to `fit`; BSD fails without negative rows (`C33_fails`) |
| C35 | `Props/Refit` over the models of SDMap, SDMapStar, VLSD, BSD | a shift lemma per algorithm; BSD and limited SDMapStar keep their lists (witnesses) |
| C56 | `Model/FPTree` | tree = prefixes of a row database; loop soundness and completeness |
| C57 | `Model/SDMap`, `Model/SDMapStar` | case analysis |
| C55 | `Model/Subgroup` | equality of keys |
| C36, C37, C39 (IDSD part), C58, C59, C35 (IDSD) | `Model/IDSD` (p-value function and the order in which pandas lists equally frequent values as parameters), `Spec/IDSD` | the search is a fold of `visit` over the subsets of selectors; top-k list invariant with domination; witnesses for kept redundant pairs and for the dependence on earlier fits |
| C37, C38, C39 (QFinder), C60 | `Model/QFinder` (regressions = any two functions of the columns), `Spec/QFinder` | loop invariant of the selection with reasons for each absence and each skipped replacement; candidates = sub-lists of the simple selectors; texts read back; witnesses for in-loop removal and for the `KeyError` of `test_subgroups` |
| C40-C42 | `Model/ListMiner` (the loops of GMSL, PSLD and DSLM once, with their differences as a `Miner`; gains over reals with nan and infinities) | refinement of the greedy rules of `Spec/ListMiner` (`Implements`): invariant of the selection loop, of one list (with fuel shown to be enough) and of the run; totality for candidates that fit the data; an execution with two equal lines |
| C43-C45, C62-C64 | `Model/SDIGA`; the first population, crossover points, mutations and the order that the unstable sorts leave come from an oracle that only has to be possible (`Spec.Possible`); the outer loop has fuel, shown to be enough | invariant of the outer loop (`Lemmas/SDIGALoop`): the rows not covered yet and their counts belong to the patterns found; a found rule is new, so the number of rules bounds the turns; hill climbing of the local search ends because each step drops a gene; witness for an attribute called `fitness` |
| C46 | `Model/MDL` over reals | termination by a decreasing bound; strict monotonicity; Kraft equality under non-negative left probability, which holds up to `2^(2^65536)` (telescoping iterated logarithms, `Lemmas/MDLKraft`); the multinomial loops against the first-principles NML sum (`Spec/MDL`), through Abel's binomial theorem (`Lemmas/Abel`), the recurrence of the generating function (`Lemmas/NML`) and a Gaussian tail bound (`Lemmas/Multinomial`) |
| C47 | `Model/Credibility` (exact rationals with infinities and nan), `Model/PValue` (reals, `norm.cdf` = Mathlib's cdf of the standard Gaussian) | arithmetic; symmetry and strict monotonicity of the Gaussian cdf |
| C48 | `Model/Credibility` | loop invariant of the running minimum and maximum; witness for inf - inf |
| C49, C61 | `Model/Regex` (derivatives; groups as leftmost-longest parts), `Model/Files` | matcher correct for the language (`Lemmas/Regex`); the input format is unambiguous; files are read with universal newlines (`\n`, `\r\n`, `\r`); one outcome per line by induction over the file; VLSD -> transform -> load is the identity on word-like data; witness for attribute names ending with a comma |
| C50 | `Model/SDMap.allCombinations` | induction |
| C51 | `Model/FPTreeNode` heap | invariant over histories; exact links from the log of successful calls in `C51_exact` |
| C52 | `Model/Quality` dictionaries | dictionary lemmas |
| C65 | `Model/GLM`: likelihood of the logistic regression without constant; the fit is a parameter | Gibbs' inequality gives the unique maximiser; normal cdf for the p-value; corollary for QFinder |
| C66 | `Model/ListFile` (`SubgroupList.__str__`, output files), `Spec/ListFile` (the lines, from counts of rows) | the invariant of C21 gives the numbers; telescoping sums; the lines determine the numbers; composition with C61 and C29 for files that start from VLSD |
| C67 | `Model/Registry`: `get_name`, `optimistic_estimate_of` and the constructor checks | cases over the 18 measures; C16 for soundness, C17 for the exception |
| C68 | `Model/ListFile`, `Model/IDSD`, `Model/QFinder`: constructor checks | exact acceptance conditions; C42 for negative limits |
| C69 | `Model/VLSD` with both `VLImpl`s | simulation: every function of VLSD gives related results on related arguments (`Lemmas/VLSDAgree`) |
| C70 | `Model/SDMap`, `SDMapStar`, `VLSD`, `BSD` | the exact files of C23-C26, C29-C31, C53 compared |
| C71 | `Model/Py`, `Model/Value` (`int`, `float` on texts), `Model/Selector`; characters beyond ASCII by the tables of Unicode 14 | grammar of literals with values in `Spec/Literal`; the parser and the grammar agree in both directions (`Lemmas/Literal`) |
| C72 | `Model/Alias` (a heap of pattern, subgroup, bitarray and list objects with references; each statement of `subgroup_list.py` in order) | separation invariant: the bitarrays of all lists are pairwise different objects that no client made; simulation of the heap by the value model `Model/SubgroupList` (`Lemmas/Alias`); witness for programs that change what the getters return |
| C73 | `Model/OutFile` (the disk contents of the file, the open file object with its position and buffer; `open("w")`, `write`, `close`, the finalizer of a dropped file object; the events of `SDMap.fit` and the file operations of the list algorithms, one by one) | invariant on (handed over, buffered, text below) preserved by every operation for every flush schedule; induction over the descriptions for any crash point; witness of the stale tail with the negative predictive value on a constant attribute. The other algorithms: C79 |
| C74 | `Model/Float64` (rounding as a function on rationals, the measures operation by operation), `Spec/Float64` (what rounding to nearest, ties to even, means) | the rounding is the only one that meets the specification; monotonicity and relative error of rounding; case analysis on the counts for the bound (the gap of one covered negative row beats four roundings) |
| C75 | the same | errors by comparing the two programs step by step; ranges by monotonicity of rounding, for WRAcc by the gap between the exact value and 1/4 |
| C76 | the same | error propagation; integrality of `tp*FP - fp*TP` gives gaps larger than the errors; witnesses by evaluation |
| C77 | `Measure.computeFl` in the models of VLSD, BSD and SDMap (they are parametric in the measure) | C74 to C76 give the conditions of C29, C30, C31, C53 |
| C78 | `binomialTest` (Model/Quality) with real square roots | case analysis of the denominators and radicands; the square of the value is N times a phi coefficient squared, bounded by 1 |
| C79 | `Model/ResultFiles`: each search once more as a trace (what it hands to `_handle_individual_result`, in order, and how it ends), the events of `fit` on counters and file, the operations of the files written at the end; one file per object, positions in characters | the state-passing `fit` of C24-C43 equals the play of its trace (induction over the searches); the events of a judged list of items for any crash point and flush schedule, by induction over the items; SDIGA by induction over the turns |
| C80 | `Model/FPHeap` (node objects with references: children dictionary, parent, node link; header entries with first and last node; every loop over them), `Spec/FPHeap` | refinement: a representation relation between the linked tree and the tree by paths of `Model/FPTree`, preserved by every insertion, link and conditioning; the loops over parents, links and children simulate the loops over paths; `fit` of SDMap and SDMapStar on objects = `fit` by paths |
| C81 | `Model/Printing` over `Model/FPHeap` (addresses = any function of the references) | induction on the depth left below a node: the visited nodes are exactly those whose path extends its path; induction along the node links |
| C82 | `Model/Printing` over `Model/VerticalList` (accumulation and cutting of the text as in the code; the text of a quality value is a parameter) | C20 for the rows; sorted lists with the same members are equal; unique reading of numbers between brackets |
| C83 | `Model/RowLabels`: labels explicit, `loc` gives a cell or a Series, whose text does not end with a quote (hypothesis) | the tree is the one of the rows with a label of their own; FP-growth exactness with a weaker threshold for the first tree (`fpgrowth_exact2`); failure witness by evaluation |
| C84 | `Model/Pools.SelPool`: a step is one access to the pool by a thread, or a dropped reference, or a collection of an object nobody holds; accesses are atomic | invariants over schedules (`List Event`), failure witnesses by evaluation |
| C85 | `Model/Pools.Single`: test, assignment and return of `_singleton` are three steps; `home` is the class whose constructor runs | invariants over schedules, failure witnesses by evaluation |
| C86 | `Model/Ctors`: Python values with their types (`Obj`), the checks in the order of the code; objects of unknown types have no relevant methods and are true | case analysis over the checks against predicates in `Spec/Ctors` |
| C87 | `Model/World`: the disk (path -> text), the objects with counters and open files, and turns (one event of one object with the amount its buffer hands over); a path is the identity of a file | induction over the interleaving: the view of an object is the run of its own events; then C73/C79; witnesses for shared paths |
| C88 | `Model/World`: the conversion and the list algorithms on paths; when input and output are one file, the lines read are those on the disk when it is opened for reading | the beginning of a report has no semicolon, so none of its lines is a candidate; then C73 |
| C89 | `Model/SpecialFloats`: selectors and patterns again, with values `nan`, `inf`, `-inf`, `-0.0` | without `nan`, finitely many selectors embed into ordinary ones (infinities become a large integer, -0.0 becomes 0) such that all comparisons agree: C04, C06, C07 are transferred; `nan` by cases; `_exact` for the order; text and hash by cases |
| C90 | `Model/FitArgs`: the checks at the beginning of the ten `fit` methods on arguments of any type, until the target column has been looked up, with a flag that says whether the file has been opened | case analysis; `C90_models` ties it to the models of `fit` of the other properties |
| C91 | `Model/LabelMask`: a Boolean `Series` is its list of (label, value) pairs; `&` aligns by label (outer join, `False` for a label on one side only, any order of the joined labels); `DataFrame[mask]` looks up the labels of the rows | induction over the selectors, with the labels of the accumulated `Series` as invariant; witnesses by evaluation |
| C92 | `Model/Nesting`: the recursive functions (`_generate_all_combinations`, `_fpgrowth`, `_search`, `_BSD`, `_grow_tree`) and their `fit` methods with a number of calls that may still be opened; a call with 0 left is `RecursionError`. Only calls of these functions are counted, not the fixed number of frames around them | each budgeted run is compared with the run of the other theorems by induction on the budget (same result, or the stack is exhausted and the budget is below the length of the longest path); completeness (C24, C30) gives the failures; attained bounds by evaluation |
| C93 | `Model/VListAny`: both constructors, `join`, `compute_quality_value` and the setter on arguments of any type; elements are integers or opaque objects (`bool`, lists, tuples, slices and bitarrays as elements are not modelled); `Prog` = programs that create, join and assign | marking bits by induction over the list of elements; programs by structural induction with a simulation relation between the set and the bitset; differences by evaluation |
| C94 | nothing new is modelled; `Spec/Shuffle`: row `i` of `df'` is row `π[i]` of `df`, columns in any order | the counts of every description are the same (a filter of a permuted range); then the exact characterisations of the algorithms (C23-C26, C29, C31, C36, C38) on both data frames; for the subgroup-list algorithms and SDIGA a simulation between the two runs (the bits reordered; the rows not yet covered up to order); witnesses by evaluation |
| C95 | nothing new is modelled | as C94, with the exact characterisations for the two configurations or the two data frames |
| C96 | `Model/SDIGARandom`: the calls of `numpy.random` in `_generate_population`, `_perform_crossover` and `_perform_mutation` on an abstract generator (three operations with a state); which choices they make in every turn | lawful generator (`rand` in [0,1), `below n` below n, `two n` two different positions below n) gives `Possible` choices, induction; conversely a scripted lawful generator that plays back any list of legal choices |
| C97 | nothing new is modelled; `Spec/Relabel`: `renameFrame ρ ν df` renames columns by `ρ` and the values of column `a` by `ν a` | renaming is a bijection between the sorted descriptions that occur, with the same rows; then the exact characterisations of the algorithms on both data frames; GMSL, PSLD, DSLM and SDIGA (which number values in order of name, so a permutation of the numbers) by step-by-step simulation of the renamed run; likewise IDSD and QFinder, whose lists are sorted by values only |
| C98 | nothing new is modelled; `Spec/Relabel`: row `i` of `df'` is a copy of row `π[i]` of `df`, `π` lists every row `k` times | counts of a permutation of `k` copies of the row numbers; `Scales k c` = the measure has the factor `c`, proved measure by measure; one proof for C97 and C98 (`Relabelled`) |
| C99 | `Model/BitsetDict`: `BitsetDictionary` (keys and values of any type, kept by text), the inherited `get`, `BitsetBSD` objects that are used more than once | texts of patterns are injective for plain selectors (`pattern_text_inj`), dictionary = fold of the allowed assignments; order of first assignments = `dedup`; `C99_fails`, `C99_stale` are witnesses |
| C100 | `Model/Compare`: Python's comparison protocol (method of the first operand, reflected method of the second, identity) on objects `Any`, with the methods of `Operator`, `Selector`, `Pattern`, `Subgroup`; `in` for lists and for dictionaries, hashes as given functions; `Pattern(list)` with comparisons that may raise. No subclasses; lists of fewer than 64 elements for the order of the comparisons in `sort` | case tables over the kinds of objects; membership and look-up by induction; a sort that returns has compared enough pairs: every element is compared with one of its own kind, so the list is of one kind; sets by induction over the insertions |
| C101 | `Model/Reuse`: `QFinder.fitObj` (the attributes as assigned when `fit` raises), `IDSD.Past` (a `fit`, or one stopped after k of its assignments to the selector appearances, the other attributes arbitrary), SDIGA from an arbitrary state | case analysis of the stages of `fit`; invariant on the first appearance of IDSD along histories, then the shift lemma of C35; simulation of the SDIGA loop by the run of a new object |
| C102 | `QFinder.fit` (`Model/QFinder`) with `Pattern.generate_from_str` as modelled for C71 | the key of every occurring candidate is in the bitset; the first piece of its text is a prefix, so what is read starts with the words of the name; the piece after the last `, ` has no blank |
| C103 | `Model/Binary64`: rounding with at most 53 digits and exponents ≥ -1074, overflow to infinity or `OverflowError`, the 16 measures; `Model/Binary64Sqrt`: BinomialTest and its estimate | `Spec/Binary64`: nearest number of the format, ties to even, proved of the rounding; invariant `Agrees`: every intermediate number is 0 or within `2^±1000`, where both roundings agree; it survives the square root (halved bounds) and the division of floats |
| C104 | nothing new is modelled | a description that occurs is determined by a row and its set of columns: injection into rows × sets of columns; the descriptions evaluated are different and occur (C23, C28, C29, C31, C39); nodes added per inserted path |
| C105 | `Model/BinaryVal`: values with floats as binary numbers, `Operator.evaluate` on them; `Spec/BinaryVal`: `repr` = any shortest decimal that is read back | rounding is monotone (C103), so a shortest round-trip decimal has the order of the floats; digit count of a non-integral decimal near an integer; `C105_fails` beyond `2^53` |
| C106 | `Model/FloatBinomial`: square root from 61 digits and a sticky digit, BinomialTest and its estimate with the rounding of each operation (unlimited exponents) | `Spec/FloatBinomial`: a nearest float to the real root, proved of the model by a parity argument; monotonicity from nearestness; the share of positives rounds to less than 1 below `2^54` rows; `C106_defined_limit` |
| C107 | `Model/FloatSDIGA`: SDIGA with a rounding `ρ` applied to every float operation (weights from `2^1024` on are not modelled as infinite) | `Spec/FloatSDIGA`: `ρ` keeps order, 0 and differences; the invariants of C43/C44/C62/C63 for every such `ρ`; `fl` and `Binary64.roundAny` are such; fractions with denominators up to `2^26` keep their strict order; relative errors multiply; `C107_exact_confidence_fails`; `C107_no_rounding` ties it to `Model/SDIGA` |
| C108 | `Model/FloatLists`: the evaluation of candidates in GMSL, PSLD, DSLM over an abstract arithmetic `Arith F` (any type, any operations, in the order of the source); `universal_code_for_integer`, `log2_multinomial_with_recurrence(2, n)` and `x / n**beta` are one operation each | `Spec/FloatLists`: the greedy rules of C41 with the computed gain, obedience up to `ε`, the standard model of rounding errors. The evaluation implements the rule for every arithmetic; error analysis by counting roundings; exact arithmetic gives back C41 |
| C109 | `Model/FloatIDSD`: IDSD, the odds ratio, the coverage and the selector contribution with a rounding `ρ` after every quotient and difference; the p-value stays the parameter `pv` | `Spec/FloatIDSD`: the calculated values of a pattern as functions of the covered rows. The invariants of C36 carried over to the calculated values; error analysis of three quotients, gap between different fractions with small denominators; witnesses where the lists differ |
| C110 | `Model/FloatQFinder`: QFinder with a rounding `ρ` after every quotient, product, sum and difference of floats in the Python code; odds ratio and p-value of the GLM stay parameters | `Spec/FloatQFinder`: the calculated entry of a pattern as a function of the covered rows, and the reasons of C38 in calculated values. The invariants of the selection loop carried over; order-preserving rounding keeps non-strict inequalities with representable thresholds; witnesses for the converses |
| C111 | `Model/FloatMDL`: `mdl.py` over any arithmetic `MDLArith` on the real numbers, operation by operation | `Spec/FloatMDL`: relative error `u` of each operation (`MDLArith.Standard`). Simulation of the two while loops with an error growing along the iterated logarithms; counting of roundings for sums and products of non-negative numbers; the truncation estimate of C46 for any number of turns from `1 + sqrt(20 n ln 10)` on; `Model/FloatMDLMax`, `Spec/FloatMDLMax` for the code with a maximum: errors of the probabilities from those of the codes, the rest left over is at least 1/20 up to `2^40` |
| C112 | `Model/Cache`: `functools.lru_cache(maxsize=1000)` with the keys of `_make_key` around the three cached functions of `mdl.py`; arguments are integers, booleans and finite floats, positional or by name | `Spec/Cache`: the different keys of the calls that returned, latest first. Invariant: the keys of the cache are the first `size` of those, every value was returned by the function for that key; the functions return only for integers, for which equal keys mean the same call |
| C113 | `Model/DigitLimit`: the constructor and `generate_from_str` of `Selector` with the `ValueError`s of `str(int)` and `int(str)`, for any limit | `Spec/DigitLimit`: the grammar of C71 with the number of digits. The parser counts the digits of the grammar; an integer prints more than `L` digits from `10^L` on |
| C114 | `Model/FloatRead`: `generate_from_str` of `Selector` with `float` rounding to binary64, overflowing to `inf` and keeping the sign of zero; parametric in `repr`; `Model/FloatReadPattern`: the same for `Pattern` and `Subgroup` | Existing specifications: the grammar of C71 (`Spec/Literal`), `IsRounding64` (`Spec/Binary64`), `ShortestRepr` (`Spec/BinaryVal`). The decimal model is rounded once (C103); two decimals of at most 15 digits are never within a relative 2^-53 of one float |
