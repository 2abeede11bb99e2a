import Verif.Model.SDIGA
/-! `src/subgroups/algorithms/subgroup_sets/sdiga.py` with the rounding of its arithmetic: `ρ` is applied to the result of every operation on floats and of
every quotient of two of type `int` (for floats without a limit of the exponents it is `Float64.fl`, with subnormal numbers `Binary64.roundAny`). Simplification:
numbers from `2^1024` on, which only weights of that size could give, are not infinite. What does not calculate with floats is taken from `Model/SDIGA`. -/
namespace Verif.SDIGARounded
open SDIGA

variable (ρ : Rat → Rat)

/-- `_calculate_support`, `sdiga.py:115-129`, with `quality_measures/support.py:44` -/
def calculateSupport (tp TP FP : Nat) : Except PyErr Rat :=
  if tp = TP ∧ TP = FP ∧ FP = 0 then .ok 0
  else (Quality.support [(kTp, tp), (kTP, TP), (kFP, FP)]).map ρ

/-- `_calculate_confidence`, `sdiga.py:133-146`, with `quality_measures/ppv.py:41` -/
def calculateConfidence (tp fp : Nat) : Except PyErr Rat :=
  if tp = fp ∧ fp = 0 then .ok 0
  else (Quality.ppv [(kTp, tp), (kFp, fp)]).map ρ

/-- `_fitness_evaluation`, `sdiga.py:307-327` -/
def fitness (cfg : SDIGAConfig) (st : SDIGAState) (rows : List ERow) (tval : Str) (c : Chrom) : Except PyErr Rat := do
  let support ← calculateSupport ρ (tpFp c st.unchecked tval).1 st.TPu st.FPu
  let confidence ← calculateConfidence ρ (tpFp c rows tval).1 (tpFp c rows tval).2
  (pyDiv (ρ (ρ (cfg.supW * support) + ρ (cfg.confW * confidence))) (ρ (cfg.supW + cfg.confW))).map ρ

/-- support, confidence, tp and fp of a chromosome on the whole data, `sdiga.py:370-372`, `398-400` -/
def measure (st : SDIGAState) (rows : List ERow) (tval : Str) (c : Chrom) : Except PyErr Metrics := do
  let support ← calculateSupport ρ (tpFp c rows tval).1 st.TP st.FP
  let confidence ← calculateConfidence ρ (tpFp c rows tval).1 (tpFp c rows tval).2
  return ⟨c, support, confidence, (tpFp c rows tval).1, (tpFp c rows tval).2⟩

/-- one turn of `for i in range(len(best_subgroup))`, `sdiga.py:390-409` -/
def dropStep (st : SDIGAState) (rows : List ERow) (tval : Str) (cur : Metrics) (acc : Option Metrics × Rat) (i : Nat) :
    Except PyErr (Option Metrics × Rat) :=
  if cur.chrom[i]?.getD 0 = 0 then .ok acc
  else
    match measure ρ st rows tval (cur.chrom.set i 0) with
    | .error e => .error e
    | .ok m =>
      if m.support ≥ cur.support ∧ m.confidence ≥ cur.confidence ∧ m.confidence > 0 then
        if ρ (m.support - cur.support) > acc.2 then .ok (some m, ρ (m.support - cur.support)) else .ok acc
      else .ok acc

/-- the `while better` loop of `_local_search`, `sdiga.py:383-418`. `fuel`: bound on the turns (each sets a gene to 0). -/
def searchLoop (st : SDIGAState) (rows : List ERow) (tval : Str) : Nat → Metrics → Except PyErr Metrics
  | 0, cur => .ok cur
  | fuel + 1, cur =>
    match (List.range cur.chrom.length).foldlM (dropStep ρ st rows tval cur) (none, 0) with
    | .error e => .error e
    | .ok (none, _) => .ok cur
    | .ok (some m, _) => searchLoop st rows tval fuel m

/-- `_local_search`, `sdiga.py:360-423`: chromosome, confidence, fitness, tp, fp -/
def localSearch (cfg : SDIGAConfig) (st : SDIGAState) (rows : List ERow) (tval : Str) (c : Chrom) :
    Except PyErr (Chrom × Rat × Rat × Nat × Nat) := do
  let m0 ← measure ρ st rows tval c
  let best ← searchLoop ρ st rows tval (c.length + 1) m0
  if best.confidence ≥ cfg.minConf then
    let f ← fitness ρ cfg st rows tval best.chrom
    return (best.chrom, best.confidence, f, best.tp, best.fp)
  else
    let f ← fitness ρ cfg st rows tval c
    return (c, best.confidence, f, m0.tp, m0.fp)

/-- one generation, `sdiga.py:462-490` -/
def generation (cfg : SDIGAConfig) (st : SDIGAState) (rows : List ERow) (tval : Str) (pop : List Ind) (g : GenChoice) :
    Except PyErr (List Ind) :=
  match pop[0]?, pop[1]? with
  | some i1, some i2 => do
    let (d1, d2) ← crossover g.cross i1.genes i2.genes
    let child1 := mutation g.mut1 d1
    let child2 := mutation g.mut2 d2
    let f1 ← fitness ρ cfg st rows tval child1
    let f2 ← fitness ρ cfg st rows tval child2
    return (g.sort (setLast (setLast pop ⟨child1, f1⟩) ⟨child2, f2⟩)).take cfg.popSize
  | _, _ => .error .indexError

/-- `population['fitness'] = population.apply(...)`, `sdiga.py:451-454` -/
def evaluate (cfg : SDIGAConfig) (st : SDIGAState) (rows : List ERow) (tval : Str) (dict : List (Str × List Val)) (pop : List Chrom) :
    Except PyErr (List Ind) :=
  pop.mapM (fun c => do
    let f ← fitness ρ cfg st rows tval c
    return ⟨dropFitness dict c, f⟩)

/-- the genetic algorithm of one turn, `sdiga.py:449-492`: the best chromosome -/
def evolve (cfg : SDIGAConfig) (st : SDIGAState) (rows : List ERow) (tval : Str) (dict : List (Str × List Val)) (o : SDIGAChoice) :
    Except PyErr Ind := do
  let pop ← evaluate ρ cfg st rows tval dict o.pop
  let last ← (List.range cfg.maxGen).foldlM (fun pop k => generation ρ cfg st rows tval pop (o.gens k)) (o.sort pop)
  match last[0]? with
  | some i => return i
  | none => .error .indexError

/-- one turn of the outer loop, `sdiga.py:445-533`; the flag: go on -/
def turn (cfg : SDIGAConfig) (rows : List ERow) (target : Str × Str) (dict : List (Str × List Val)) (o : SDIGAChoice)
    (st : SDIGAState) : Except PyErr (SDIGAState × Bool) := do
  let best ← evolve ρ cfg st rows target.2 dict o
  let st := { st with unselected := st.unselected + 2 * cfg.maxGen + (cfg.popSize - 1) }
  let (chrom, conf, fit, tp, fp) ← localSearch ρ cfg st rows target.2 best.genes
  let last ← decode (chromDict dict) chrom
  if st.cases.any (fun case => case.isRefinement last true) then return (st, false)
  else if conf < cfg.minConf then return (st, false)
  else
    let u := tpFp chrom st.unchecked target.2
    let line : SDIGALine := ⟨⟨last, ⟨target.1, .equal, .str target.2⟩⟩, fit, tp, fp, st.TP, st.FP, u.1, u.2, st.TPu, st.FPu⟩
    let rest := filterWithout chrom st.unchecked
    return ({ st with
      cases := st.cases ++ [last]
      selected := st.selected + 1
      file := if cfg.write then st.file ++ [line] else st.file
      unchecked := rest
      TPu := countTarget target.2 rest
      FPu := rest.length - countTarget target.2 rest }, true)

/-- the outer loop, `sdiga.py:443-533`: `none` if it has not stopped after `fuel` turns. `k`: number of the next turn. -/
def loop (cfg : SDIGAConfig) (rows : List ERow) (target : Str × Str) (dict : List (Str × List Val)) (o : Nat → SDIGAChoice) :
    Nat → Nat → SDIGAState → Option (Except PyErr SDIGAState)
  | 0, _, _ => none
  | fuel + 1, k, st =>
    match turn ρ cfg rows target dict (o k) st with
    | .error e => some (.error e)
    | .ok (st', true) => loop cfg rows target dict o fuel (k + 1) st'
    | .ok (st', false) => some (.ok st')

/-- `SDIGA.fit`, `sdiga.py:536-566`, and the first lines of `_SDIGA`, `sdiga.py:425-442` -/
def fit (cfg : SDIGAConfig) (o : Nat → SDIGAChoice) (fuel : Nat) (st : SDIGAState) (df : Frame) (target : Str × Str) :
    Option (Except PyErr SDIGAState) :=
  if !df.nominal then some (.error .datasetAttributeType)
  else match df.col target.1 with
    | .error e => some (.error e)
    | .ok tcol =>
      if !(tcol.any (fun v => v.eq (.str target.2))) then some (.error .valueError)
      else
        let rows := encodeRows df target.1 tcol
        let TP := tcol.countP (fun v => v.eq (.str target.2))
        loop ρ cfg rows target (encodeDict df target.1) o fuel 0
          { st with file := if cfg.write then [] else st.file
                    cases := [], unchecked := rows, TP := TP, FP := df.nrows - TP, TPu := TP, FPu := df.nrows - TP }

end Verif.SDIGARounded
