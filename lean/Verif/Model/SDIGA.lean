import Verif.Model.Nominal
import Verif.Model.Quality
/-! Model of `src/subgroups/algorithms/subgroup_sets/sdiga.py`. Every random number and every order of equal elements chosen by an
unstable sort comes from an oracle (`SDIGAChoice`). Simplifications: floats are exact rationals; the data frame has texts only and
the default index; a data frame whose only column is the target is not modelled (the theorems ask for another one). -/
namespace Verif

/-- a chromosome: one gene per attribute, 0 = the attribute is not used, `k + 1` = its `k`-th value -/
abbrev Chrom := List Nat

/-- a row of the encoded data frame: its index label, its codes, and the cell of the target column -/
structure ERow where
  idx : Nat
  genes : List Nat
  tgt : Val
  deriving DecidableEq

namespace SDIGA

/-- the dictionary of `_chromosome_encoding_and_dictionary`, `sdiga.py:37-38`: attribute -> sorted distinct values.
Simplification: when all the attributes have the same number of values, pandas' `apply` makes a table, and each value of the dictionary is then a dictionary with the keys
`0 .. k-1` instead of a list; the algorithm only indexes it, with the same results. -/
def encodeDict (df : Frame) (tname : Str) : List (Str × List Val) :=
  (otherCols df tname).map (fun c => (c.1, groupKeys c.2))

/-- `x.cat.codes + 1` as `uint16`, `sdiga.py:39-40` -/
def code (cats : List Val) (v : Val) : Nat := (cats.idxOf v + 1) % 65536

/-- the encoded data frame of `_chromosome_encoding_and_dictionary`, `sdiga.py:37-42`, by rows -/
def encodeRows (df : Frame) (tname : Str) (tcol : List Val) : List ERow :=
  (List.range df.nrows).map (fun i =>
    ⟨i, (otherCols df tname).map (fun c => code (groupKeys c.2) (c.2[i]?.getD (.str []))), tcol[i]?.getD (.str [])⟩)

/-- one turn of the loop of `_chromosome_decoding`, `sdiga.py:55-58` -/
def decodeGene (e : (Str × List Val) × Nat) : Except PyErr (List Selector) :=
  if e.2 ≠ 0 then
    match e.1.2[e.2 - 1]? with
    | some v => .ok [⟨e.1.1, .equal, v⟩]
    | none => .error .indexError
  else .ok []

/-- `_chromosome_decoding`, `sdiga.py:44-60`; `dict` has the keys of the chromosome -/
def decode (dict : List (Str × List Val)) (c : Chrom) : Except PyErr Pattern :=
  match (dict.zip c).mapM decodeGene with
  | .ok l => .ok (Pattern.new l.flatten)
  | .error e => .error e

/-- the mask of `_filter_rows_with_chromosome`, `sdiga.py:70-76`: by position, not by name -/
def rowMask (c : Chrom) (r : ERow) : Bool := (c.zip r.genes).all (fun e => e.1 == 0 || e.2 == e.1)

/-- `_filter_rows_with_chromosome`, `sdiga.py:62-78` -/
def filterWith (c : Chrom) (rows : List ERow) : List ERow := rows.filter (fun r => rowMask c r)

/-- `_filter_rows_without_chromosome`, `sdiga.py:80-96` -/
def filterWithout (c : Chrom) (rows : List ERow) : List ERow := rows.filter (fun r => !rowMask c r)

/-- `sum(df[target[0]] == target[1])` -/
def countTarget (tval : Str) (rows : List ERow) : Nat := rows.countP (fun r => r.tgt.eq (.str tval))

/-- `_get_tp_and_fp`, `sdiga.py:98-112` -/
def tpFp (c : Chrom) (rows : List ERow) (tval : Str) : Nat × Nat :=
  let f := filterWith c rows
  let tp := countTarget tval f
  (tp, f.length - tp)

/-- `_calculate_support`, `sdiga.py:115-129` -/
def calculateSupport (tp TP FP : Nat) : Except PyErr Rat :=
  if tp = TP ∧ TP = FP ∧ FP = 0 then .ok 0
  else Quality.support [(kTp, tp), (kTP, TP), (kFP, FP)]

/-- `_calculate_confidence`, `sdiga.py:133-146` -/
def calculateConfidence (tp fp : Nat) : Except PyErr Rat :=
  if tp = fp ∧ fp = 0 then .ok 0
  else Quality.ppv [(kTp, tp), (kFp, fp)]

end SDIGA

/-- configuration of an `SDIGA` object, `sdiga.py:186-242`; `write`: a result file was asked for -/
structure SDIGAConfig where
  maxGen : Nat
  popSize : Nat
  crossProb : Rat
  mutProb : Rat
  confW : Rat
  supW : Rat
  minConf : Rat
  write : Bool

/-- `SDIGA.__init__`, `sdiga.py:186-242`, for arguments of the documented types; `path`: a `file_path` was given -/
def SDIGAConfig.new (maxGen popSize : Int) (crossProb mutProb confW supW minConf : Rat) (write path : Bool) :
    Except PyErr SDIGAConfig :=
  if write && !path then .error .valueError
  else if maxGen ≤ 0 then .error .valueError
  else if popSize ≤ 0 then .error .valueError
  else if crossProb ≤ 0 ∨ crossProb ≥ 1 then .error .valueError
  else if mutProb ≤ 0 ∨ mutProb ≥ 1 then .error .valueError
  else if supW < 0 then .error .valueError
  else if confW < 0 then .error .valueError
  else if minConf < 0 then .error .valueError
  else .ok ⟨maxGen.toNat, popSize.toNat, crossProb, mutProb, confW, supW, minConf, write⟩

/-- a row of the population: chromosome and the column `fitness` -/
structure Ind where
  genes : Chrom
  fit : Rat
  deriving DecidableEq

/-- the random choices of one generation: the sorted crossover points (`none`: no crossover), for each child the mutated position
with its new gene (`none`: no mutation), and the order in which `nlargest` leaves the rows -/
structure GenChoice where
  cross : Option (Nat × Nat)
  mut1 : Option (Nat × Nat)
  mut2 : Option (Nat × Nat)
  sort : List Ind → List Ind

/-- the random choices of one turn of the outer loop -/
structure SDIGAChoice where
  pop : List Chrom
  sort : List Ind → List Ind
  gens : Nat → GenChoice

/-- a line of the result file, `sdiga.py:515-525` -/
structure SDIGALine where
  subgroup : Subgroup
  fitness : Rat
  tp : Nat
  fp : Nat
  TP : Nat
  FP : Nat
  utp : Nat
  ufp : Nat
  TPu : Nat
  FPu : Nat
  deriving DecidableEq

/-- the mutable state of an `SDIGA` object, its file, and the list `best_cases` -/
structure SDIGAState where
  selected : Nat
  unselected : Nat
  file : List SDIGALine
  cases : List Pattern
  unchecked : List ERow
  TP : Nat
  FP : Nat
  TPu : Nat
  FPu : Nat
  deriving DecidableEq

namespace SDIGA

/-- `_fitness_evaluation`, `sdiga.py:307-327`; `rows`: the whole encoded data frame -/
def fitness (cfg : SDIGAConfig) (st : SDIGAState) (rows : List ERow) (tval : Str) (c : Chrom) : Except PyErr Rat := do
  let support ← calculateSupport (tpFp c st.unchecked tval).1 st.TPu st.FPu
  let confidence ← calculateConfidence (tpFp c rows tval).1 (tpFp c rows tval).2
  pyDiv (cfg.supW * support + cfg.confW * confidence) (cfg.supW + cfg.confW)

/-- `_perform_crossover`, `sdiga.py:331-345`: `random.choice(range(len), 2, replace=False)` fails for fewer than two genes -/
def crossover (ch : Option (Nat × Nat)) (p1 p2 : Chrom) : Except PyErr (Chrom × Chrom) :=
  match ch with
  | none => .ok (p1, p2)
  | some (a, b) =>
    if p1.length < 2 then .error .valueError
    else .ok (p1.take a ++ (p2.take b).drop a ++ p1.drop b, p2.take a ++ (p1.take b).drop a ++ p2.drop b)

/-- `_perform_mutation`, `sdiga.py:347-358` -/
def mutation (ch : Option (Nat × Nat)) (c : Chrom) : Chrom :=
  match ch with
  | none => c
  | some (i, g) => c.set i g

/-- the variables of one turn of the loop of `_local_search`: `best_candidate` with `best_metrics`, and `best_support_delta` -/
structure Metrics where
  chrom : Chrom
  support : Rat
  confidence : Rat
  tp : Nat
  fp : Nat

/-- support, confidence, tp and fp of a chromosome on the whole data, `sdiga.py:370-372`, `398-400` -/
def measure (st : SDIGAState) (rows : List ERow) (tval : Str) (c : Chrom) : Except PyErr Metrics := do
  let support ← calculateSupport (tpFp c rows tval).1 st.TP st.FP
  let confidence ← calculateConfidence (tpFp c rows tval).1 (tpFp c rows tval).2
  return ⟨c, support, confidence, (tpFp c rows tval).1, (tpFp c rows tval).2⟩

/-- one turn of `for i in range(len(best_subgroup))`, `sdiga.py:390-409` -/
def dropStep (st : SDIGAState) (rows : List ERow) (tval : Str) (cur : Metrics) (acc : Option Metrics × Rat) (i : Nat) :
    Except PyErr (Option Metrics × Rat) :=
  if cur.chrom[i]?.getD 0 = 0 then .ok acc
  else
    match measure st rows tval (cur.chrom.set i 0) with
    | .error e => .error e
    | .ok m =>
      if m.support ≥ cur.support ∧ m.confidence ≥ cur.confidence ∧ m.confidence > 0 then
        if m.support - cur.support > acc.2 then .ok (some m, m.support - cur.support) else .ok acc
      else .ok acc

/-- the `while better` loop of `_local_search`, `sdiga.py:383-418`. `fuel`: bound on the turns (each sets a gene to 0). -/
def searchLoop (st : SDIGAState) (rows : List ERow) (tval : Str) : Nat → Metrics → Except PyErr Metrics
  | 0, cur => .ok cur
  | fuel + 1, cur =>
    match (List.range cur.chrom.length).foldlM (dropStep st rows tval cur) (none, 0) with
    | .error e => .error e
    | .ok (none, _) => .ok cur
    | .ok (some m, _) => searchLoop st rows tval fuel m

/-- `_local_search`, `sdiga.py:360-423`: chromosome, confidence, fitness, tp, fp -/
def localSearch (cfg : SDIGAConfig) (st : SDIGAState) (rows : List ERow) (tval : Str) (c : Chrom) :
    Except PyErr (Chrom × Rat × Rat × Nat × Nat) := do
  let m0 ← measure st rows tval c
  let best ← searchLoop st rows tval (c.length + 1) m0
  if best.confidence ≥ cfg.minConf then
    let f ← fitness cfg st rows tval best.chrom
    return (best.chrom, best.confidence, f, best.tp, best.fp)
  else
    let f ← fitness cfg st rows tval c
    return (c, best.confidence, f, m0.tp, m0.fp)

/-- `population.iloc[-1] = x` -/
def setLast (pop : List Ind) (x : Ind) : List Ind := pop.set (pop.length - 1) x

/-- one generation, `sdiga.py:462-490` -/
def generation (cfg : SDIGAConfig) (st : SDIGAState) (rows : List ERow) (tval : Str) (pop : List Ind) (g : GenChoice) :
    Except PyErr (List Ind) :=
  match pop[0]?, pop[1]? with
  | some i1, some i2 => do
    let (d1, d2) ← crossover g.cross i1.genes i2.genes
    let child1 := mutation g.mut1 d1
    let child2 := mutation g.mut2 d2
    let f1 ← fitness cfg st rows tval child1
    let f2 ← fitness cfg st rows tval child2
    return (g.sort (setLast (setLast pop ⟨child1, f1⟩) ⟨child2, f2⟩)).take cfg.popSize
  | _, _ => .error .indexError

/-- the names of the columns of the population other than `fitness`: the keys of a chromosome. An attribute called `fitness` is
overwritten by the column of the fitness values, `sdiga.py:454`, and dropped from the chromosomes, `sdiga.py:465`. Simplification: the
children are written by position with their fitness last (`sdiga.py:483-484`), so that with such an attribute that is not the last column
they get values of other columns; the theorems about `fit` exclude such attributes, except `C45_fitness_attribute_fails`. -/
def chromDict (dict : List (Str × List Val)) : List (Str × List Val) := dict.filter (fun e => e.1 ≠ c!"fitness")

/-- `population.iloc[k].drop('fitness')` of a row of the first population -/
def dropFitness (dict : List (Str × List Val)) (c : Chrom) : Chrom :=
  ((dict.zip c).filter (fun e => e.1.1 ≠ c!"fitness")).map (·.2)

/-- `population['fitness'] = population.apply(...)`, `sdiga.py:451-454` -/
def evaluate (cfg : SDIGAConfig) (st : SDIGAState) (rows : List ERow) (tval : Str) (dict : List (Str × List Val)) (pop : List Chrom) :
    Except PyErr (List Ind) :=
  pop.mapM (fun c => do
    let f ← fitness cfg st rows tval c
    return ⟨dropFitness dict c, f⟩)

/-- the genetic algorithm of one turn, `sdiga.py:449-492`: the best chromosome -/
def evolve (cfg : SDIGAConfig) (st : SDIGAState) (rows : List ERow) (tval : Str) (dict : List (Str × List Val)) (o : SDIGAChoice) :
    Except PyErr Ind := do
  let pop ← evaluate cfg st rows tval dict o.pop
  let last ← (List.range cfg.maxGen).foldlM (fun pop k => generation cfg st rows tval pop (o.gens k)) (o.sort pop)
  match last[0]? with
  | some i => return i
  | none => .error .indexError

/-- one turn of the outer loop, `sdiga.py:445-533`; the flag: go on -/
def turn (cfg : SDIGAConfig) (rows : List ERow) (target : Str × Str) (dict : List (Str × List Val)) (o : SDIGAChoice)
    (st : SDIGAState) : Except PyErr (SDIGAState × Bool) := do
  let best ← evolve cfg st rows target.2 dict o
  let st := { st with unselected := st.unselected + 2 * cfg.maxGen + (cfg.popSize - 1) }
  let (chrom, conf, fit, tp, fp) ← localSearch cfg st rows target.2 best.genes
  let last ← decode (chromDict dict) chrom
  if st.cases.any (fun case => case.isRefinement last true) then return (st, false)
  else if conf < cfg.minConf then return (st, false)
  else
    let u := tpFp chrom st.unchecked target.2
    let line : SDIGALine := ⟨⟨last, ⟨target.1, .equal, .str target.2⟩⟩, fit, tp, fp, st.TP, st.FP, u.1, u.2, st.TPu, st.FPu⟩
    let rest := filterWithout chrom st.unchecked
    return ({ st with
      cases := st.cases ++ [last]
      selected := st.selected + 1
      file := if cfg.write then st.file ++ [line] else st.file
      unchecked := rest
      TPu := countTarget target.2 rest
      FPu := rest.length - countTarget target.2 rest }, true)

/-- the outer loop, `sdiga.py:443-533`: `none` if it has not stopped after `fuel` turns. `k`: number of the next turn. -/
def loop (cfg : SDIGAConfig) (rows : List ERow) (target : Str × Str) (dict : List (Str × List Val)) (o : Nat → SDIGAChoice) :
    Nat → Nat → SDIGAState → Option (Except PyErr SDIGAState)
  | 0, _, _ => none
  | fuel + 1, k, st =>
    match turn cfg rows target dict (o k) st with
    | .error e => some (.error e)
    | .ok (st', true) => loop cfg rows target dict o fuel (k + 1) st'
    | .ok (st', false) => some (.ok st')

/-- `SDIGA.fit`, `sdiga.py:536-566`, and the first lines of `_SDIGA`, `sdiga.py:425-442` -/
def fit (cfg : SDIGAConfig) (o : Nat → SDIGAChoice) (fuel : Nat) (st : SDIGAState) (df : Frame) (target : Str × Str) :
    Option (Except PyErr SDIGAState) :=
  if !df.nominal then some (.error .datasetAttributeType)
  else match df.col target.1 with
    | .error e => some (.error e)
    | .ok tcol =>
      if !(tcol.any (fun v => v.eq (.str target.2))) then some (.error .valueError)
      else
        let rows := encodeRows df target.1 tcol
        let TP := tcol.countP (fun v => v.eq (.str target.2))
        loop cfg rows target (encodeDict df target.1) o fuel 0
          { st with file := if cfg.write then [] else st.file
                    cases := [], unchecked := rows, TP := TP, FP := df.nrows - TP, TPu := TP, FPu := df.nrows - TP }

end SDIGA
end Verif
