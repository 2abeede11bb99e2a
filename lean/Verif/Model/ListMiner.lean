import Verif.Model.SubgroupList
import Verif.Model.MDL
import Verif.Model.Nominal
/-! Model of the search of the subgroup-list algorithms, `src/subgroups/algorithms/subgroup_lists/{gmsl,psld,dslm}.py`.
The three `fit` methods have the same loops; they differ in the evaluation of a candidate, in the deletion of related
candidates, in the size limit and in the counters of DSLM. `Miner` collects these differences. Loading the candidates is
in `Model/LoadCandidates.lean`. -/
namespace Verif

/-- a candidate: subgroup and its two bitarrays over the complete data set -/
structure Cand where
  sub : Subgroup
  pos : Bits
  neg : Bits

/-- the differences between the algorithms. `G` are the values of the compression gain, `C` the counters. -/
structure Miner (G C : Type) where
  /-- `0.0` -/
  zero : G
  /-- `>` on gains -/
  gt : G → G → Bool
  /-- the evaluation of a candidate inside the loop: the subgroup list afterwards (it is changed and restored), the gain and
  the value of the rest of the condition -/
  eval : SubgroupList → C → Cand → Except PyErr (SubgroupList × G × Bool)
  init : C
  update : C → Cand → C
  /-- does the first subgroup, once chosen, delete the second from the candidates? -/
  deletes : Subgroup → Subgroup → Bool
  maxSize : Option Nat

variable {G C : Type}

/-- the loop over the candidates, `gmsl.py:239-256`, `psld.py:135-153`, `dslm.py:148-173`: `i` is the index, `best` the best
candidate so far with its index, `g` its gain -/
def selectBest (M : Miner G C) (ctr : C) :
    List (Option Cand) → Nat → SubgroupList → Option (Nat × Cand) → G → Except PyErr (SubgroupList × Option (Nat × Cand))
  | [], _, sl, best, _ => .ok (sl, best)
  | none :: cs, i, sl, best, g => selectBest M ctr cs (i + 1) sl best g
  | some c :: cs, i, sl, best, g =>
    match M.eval sl ctr c with
    | .error e => .error e
    | .ok (sl', gain, cond) =>
      if M.gt gain g && cond then selectBest M ctr cs (i + 1) sl' (some (i, c)) gain
      else selectBest M ctr cs (i + 1) sl' best g

/-- the deletion loop, `gmsl.py:265-269`, `psld.py:162-167`, `dslm.py:188-193` -/
def deleteRelated (M : Miner G C) (best : Subgroup) (cs : List (Option Cand)) : List (Option Cand) :=
  cs.map (fun o => match o with
    | some c => if M.deletes best c.sub then none else some c
    | none => none)

/-- the second part of the condition of the while loop, `psld.py:129`, `dslm.py:142`; GMSL has none (`gmsl.py:233`) -/
def belowMax : Option Nat → Nat → Bool
  | none, _ => true
  | some m, len => decide (len < m)

/-- the while loop of one subgroup list, `gmsl.py:233-269`, `psld.py:129-167`, `dslm.py:142-193`, with at most `fuel`
iterations (`none`: still running) -/
def buildList (M : Miner G C) :
    Nat → SubgroupList → C → List (Option Cand) → Except PyErr (Option (SubgroupList × List (Option Cand)))
  | 0, _, _, _ => .ok none
  | fuel + 1, sl, ctr, cs =>
    if belowMax M.maxSize sl.len then
      match selectBest M ctr cs 0 sl none M.zero with
      | .error e => .error e
      | .ok (sl1, none) => .ok (some (sl1, cs))
      | .ok (sl1, some (i, c)) =>
        match sl1.add c.sub c.pos c.neg with
        | .error e => .error e
        | .ok sl2 => buildList M fuel sl2 (M.update ctr c) (deleteRelated M c.sub (cs.set i none))
    else .ok (some (sl, cs))

/-- the number of candidates left -/
def remaining (cs : List (Option Cand)) : Nat := cs.countP Option.isSome

/-- the loop over the subgroup lists, `gmsl.py:229-270`, `psld.py:125-168`, `dslm.py:132-194`: the candidates deleted stay deleted for the next lists. The number
of iterations granted to each list is shown to be enough. -/
def buildLists (M : Miner G C) (l0 : SubgroupList) :
    Nat → List (Option Cand) → Except PyErr (List SubgroupList)
  | 0, _ => .ok []
  | k + 1, cs =>
    match buildList M (remaining cs + 1) l0 M.init cs with
    | .error e => .error e
    | .ok none => .ok []
    | .ok (some (sl, cs')) =>
      match buildLists M l0 k cs' with
      | .error e => .error e
      | .ok rest => .ok (sl :: rest)

/-! ### Compression gains -/

/-- a float as far as the algorithms need it: a real number, not-a-number or an infinity -/
inductive RVal
  | nan
  | fin (r : ℝ)
  | inf
  | ninf

namespace RVal
open Classical in
/-- `a > b` on floats -/
noncomputable def gt : RVal → RVal → Bool
  | .fin a, .fin b => decide (a > b)
  | .inf, .fin _ => true
  | .inf, .ninf => true
  | .fin _, .ninf => true
  | _, _ => false

/-- `a + b` -/
noncomputable def add : RVal → RVal → RVal
  | .nan, _ => .nan
  | _, .nan => .nan
  | .fin a, .fin b => .fin (a + b)
  | .inf, .ninf => .nan
  | .ninf, .inf => .nan
  | .inf, _ => .inf
  | _, .inf => .inf
  | .ninf, _ => .ninf
  | _, .ninf => .ninf

/-- `a / x` for a real `x > 0` -/
noncomputable def divPos : RVal → ℝ → RVal
  | .fin a, x => .fin (a / x)
  | a, _ => a

open Classical in
/-- `a * x` for a real `x` -/
noncomputable def mulFin : RVal → ℝ → RVal
  | .nan, _ => .nan
  | .fin a, x => .fin (a * x)
  | .inf, x => if x = 0 then .nan else if x > 0 then .inf else .ninf
  | .ninf, x => if x = 0 then .nan else if x > 0 then .ninf else .inf
end RVal

/-- `- pos * log2(P/rows) - neg * log2(N/rows)`: the cost of the default rule, `gmsl.py:94-95` and `101-102`. The logarithm of 0 is
minus infinity and 0 times an infinity is not a number; since the default rule covers only rows of the data set, an
empty class always gives not-a-number. -/
noncomputable def defRuleCost (P N pos neg : Nat) : RVal :=
  if P = 0 ∨ N = 0 then .nan
  else .fin (-(pos : ℝ) * Real.logb 2 ((P : ℝ) / (P + N : Nat)) - (neg : ℝ) * Real.logb 2 ((N : ℝ) / (P + N : Nat)))

/-- `log2_multinomial_with_recurrence(2, n)` as a number -/
noncomputable def log2C2 (n : Nat) : ℝ := match MDL.log2Multinomial 2 n with | .ok r => r | .error _ => 0

/-- `candidate_value`, `gmsl.py:107-118` -/
noncomputable def candidateValue (p n : Nat) : ℝ :=
  if p + n = 0 then 0
  else if p = 0 then -(n : ℝ) * Real.logb 2 ((n : ℝ) / (p + n : Nat)) + log2C2 (p + n)
  else if n = 0 then -(p : ℝ) * Real.logb 2 ((p : ℝ) / (p + n : Nat)) + log2C2 (p + n)
  else -(p : ℝ) * Real.logb 2 ((p : ℝ) / (p + n : Nat)) - (n : ℝ) * Real.logb 2 ((n : ℝ) / (p + n : Nat)) + log2C2 (p + n)

/-- `a - b` of two costs -/
noncomputable def RVal.sub (a b : RVal) : RVal := match b with
  | .fin x => a.add (.fin (-x))
  | .inf => a.add .ninf
  | .ninf => a.add .inf
  | .nan => .nan

/-- `_compute_delta_data_model_candidate`, `gmsl.py:79-122` and `psld.py:45-88`: the list afterwards, the gain and the positives and negatives that the
candidate covers at its position -/
noncomputable def deltaData (sl : SubgroupList) (c : Cand) : Except PyErr (SubgroupList × RVal × Nat × Nat) :=
  let P := sl.dist.1
  let N := sl.dist.2 - sl.dist.1
  let before := defRuleCost P N sl.defPos.ones sl.defNeg.ones
  match sl.add c.sub c.pos c.neg with
  | .error e => .error e
  | .ok sl1 =>
    let after := defRuleCost P N sl1.defPos.ones sl1.defNeg.ones
    let p := (sl1.pos.getLastD []).ones
    let n := (sl1.neg.getLastD []).ones
    .ok (sl1.deleteLast, (before.sub after).sub (.fin (candidateValue p n)), p, n)

/-- the loop over the selectors of the description, `gmsl.py:139-142`: `KeyError` for an attribute that is not a column -/
noncomputable def selectorCost (df : Frame) : List Selector → ℝ → Except PyErr ℝ
  | [], r => .ok r
  | s :: rest, r => match df.col s.attr with
    | .error e => .error e
    | .ok col => selectorCost df rest (r - Real.logb 2 (col.dedup.length : ℝ))

/-- `_compute_delta_model_candidate`, `gmsl.py:125-143`. `log2` of `numpy` refuses integers that do not fit in 64 bits
(`TypeError`); the logarithm of `comb(...) = 0` is minus infinity. -/
noncomputable def deltaModel (df : Frame) (sl : SubgroupList) (s : Subgroup) : Except PyErr RVal :=
  let len := s.description.sels.length
  let r := MDL.code sl.len - MDL.code (sl.len + 1) - MDL.code len
  let comb := (df.cols.length - 1).choose len
  if comb ≥ 2 ^ 64 then .error .typeError
  else if comb = 0 then match selectorCost df s.description.sels r with
    | .error e => .error e
    | .ok _ => .ok .inf
  else match selectorCost df s.description.sels (r - Real.logb 2 (comb : ℝ)) with
    | .error e => .error e
    | .ok v => .ok (.fin v)

/-- the evaluation of a candidate in GMSL, `gmsl.py:247-253` -/
noncomputable def gmslEval (df : Frame) (beta : ℝ) (sl : SubgroupList) (_ : Unit) (c : Cand) :
    Except PyErr (SubgroupList × RVal × Bool) :=
  match deltaData sl c with
  | .error e => .error e
  | .ok (sl1, ddm, p, n) =>
    if p + n = 0 then .ok (sl1, .fin 0, true)
    else match deltaModel df sl1 c.sub with
      | .error e => .error e
      | .ok dm => .ok (sl1, (dm.add ddm).divPos (((p + n : Nat) : ℝ) ^ beta), true)

/-- GMSL: only refinements are deleted, `gmsl.py:266`; no size limit -/
noncomputable def gmsl (df : Frame) (beta : ℝ) : Miner RVal Unit where
  zero := .fin 0
  gt := RVal.gt
  eval := gmslEval df beta
  init := ()
  update := fun _ _ => ()
  deletes := fun best s => best.isRefinement s false
  maxSize := none

/-- the evaluation of a candidate in PSLD, `psld.py:143-150` -/
noncomputable def psldEval (df : Frame) (beta : ℝ) (sl : SubgroupList) (_ : Unit) (c : Cand) :
    Except PyErr (SubgroupList × RVal × Bool) :=
  match deltaData sl c with
  | .error e => .error e
  | .ok (sl1, ddm, p, n) =>
    if p + n = 0 then .ok (sl1, .fin 0, decide (p > 0))
    else match deltaModel df sl1 c.sub with
      | .error e => .error e
      | .ok dm => .ok (sl1, (dm.add ddm).divPos (((p + n : Nat) : ℝ) ^ beta), decide (p > 0))

/-- PSLD: refinements and generalisations are deleted, `psld.py:164` -/
noncomputable def psld (df : Frame) (beta : ℝ) (slMaxSize : Nat) : Miner RVal Unit where
  zero := .fin 0
  gt := RVal.gt
  eval := psldEval df beta
  init := ()
  update := fun _ _ => ()
  deletes := fun best s => best.isRefinement s false || s.isRefinement best false
  maxSize := some slMaxSize

/-- the sums of the loop of the overlap factors, `dslm.py:62-68` and `86-92`: (total_sum, subgroup_sum) -/
def overlapSums : List Nat → Bits → Nat × Nat
  | [], _ => (0, 0)
  | n :: ns, [] => let r := overlapSums ns []; (n + r.1, r.2)
  | n :: ns, b :: bs => let r := overlapSums ns bs; (n + r.1, (if b then n else 0) + r.2)

/-- `_compute_positive_overlap_factor`, `dslm.py:50-71` (`dflt` = 1), and `_compute_negative_overlap_factor`, `dslm.py:74-95` (`dflt` = 0) -/
def overlapFactor (dflt : Rat) (b : Bits) (counter : List Nat) : Rat :=
  if b.ones = 0 then dflt
  else
    let r := overlapSums counter b
    if r.1 = 0 then 0 else (r.2 : Rat) / (r.1 : Rat)

/-- the update of a counter, `dslm.py:176-180` -/
def bumpCounter (counter : List Nat) (b : Bits) : List Nat :=
  List.zipWith (fun n (x : Bool) => if x then n + 1 else n) counter b

open Classical in
/-- the evaluation of a candidate in DSLM, `dslm.py:156-170` -/
noncomputable def dslmEval (df : Frame) (beta : ℝ) (maxPos maxNeg : ℝ) (sl : SubgroupList) (ctr : List Nat × List Nat) (c : Cand) :
    Except PyErr (SubgroupList × RVal × Bool) :=
  match deltaData sl c with
  | .error e => .error e
  | .ok (sl1, ddm, p, n) =>
    if p + n = 0 then .ok (sl1, .fin 0, decide (p > 0) && decide ((1 : ℝ) ≤ maxPos) && decide ((1 : ℝ) ≤ maxNeg))
    else match deltaModel df sl1 c.sub with
      | .error e => .error e
      | .ok dm =>
        let po := overlapFactor 1 c.pos ctr.1
        let no := overlapFactor 0 c.neg ctr.2
        .ok (sl1, (((dm.add ddm).divPos (((p + n : Nat) : ℝ) ^ beta)).mulFin (1 - (po : ℝ))).mulFin (1 - (no : ℝ)),
          decide (p > 0) && decide ((po : ℝ) ≤ maxPos) && decide ((no : ℝ) ≤ maxNeg))

/-- DSLM: as PSLD, with the counters of the list, `dslm.py:133-138` and `175-180` -/
noncomputable def dslm (df : Frame) (beta : ℝ) (slMaxSize : Nat) (maxPos maxNeg : ℝ) : Miner RVal (List Nat × List Nat) where
  zero := .fin 0
  gt := RVal.gt
  eval := dslmEval df beta maxPos maxNeg
  init := (List.replicate df.nrows 0, List.replicate df.nrows 0)
  update := fun ctr c => (bumpCounter ctr.1 c.pos, bumpCounter ctr.2 c.neg)
  deletes := fun best s => best.isRefinement s false || s.isRefinement best false
  maxSize := some slMaxSize

/-- `fit` of the three algorithms after the candidates are loaded, `gmsl.py:194-272`, `psld.py:90-170`, `dslm.py:97-196` (`cs` are the candidates that
`_load_candidates` returns, or its exception) -/
def listFit (M : Miner G C) (maxSl : Nat) (df : Frame) (target : Str × Str) (cs : Except PyErr (List Cand)) :
    Except PyErr (List SubgroupList) :=
  if df.nrows = 0 then .error .valueError
  else if !df.nominal then .error .datasetAttributeType
  else match targetMask df target with
    | .error e => .error e
    | .ok mask => match SubgroupList.new mask (Bits.not mask) df.nrows with
      | .error e => .error e
      | .ok l0 => match cs with
        | .error e => .error e
        | .ok cs => buildLists M l0 maxSl (cs.map some)

end Verif
