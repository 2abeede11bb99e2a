import Verif.Model.ListMiner
/-! Model of the evaluation of the candidates in `src/subgroups/algorithms/subgroup_lists/{gmsl,psld,dslm}.py` over any
arithmetic: `F` are the floats of the machine and `Arith F` are its operations, about which nothing is assumed. The operations
are applied in the order of the source. The loops are those of `Model/ListMiner.lean`. -/
namespace Verif

/-- the operations of the machine that the evaluation uses -/
structure Arith (F : Type) where
  /-- `0.0` -/
  zero : F
  /-- `1.0` -/
  one : F
  /-- `x > y` -/
  gt : F → F → Bool
  /-- `x <= y` -/
  le : F → F → Bool
  /-- `x + y` -/
  add : F → F → F
  /-- `x - y` -/
  sub : F → F → F
  /-- `x * y` -/
  mul : F → F → F
  /-- `m / n` of two integers -/
  quot : Nat → Nat → F
  /-- `n * x` of an integer and a float -/
  scale : Nat → F → F
  /-- `(-n) * x` of an integer and a float -/
  scaleNeg : Nat → F → F
  /-- `log2(x)` of a float -/
  logF : F → F
  /-- `log2(n)` of an integer below `2^64` -/
  logN : Nat → F
  /-- `x / (n**beta)` -/
  divPow : F → Nat → F
  /-- `universal_code_for_integer(n)` -/
  code : Nat → F
  /-- `log2_multinomial_with_recurrence(2, n)` -/
  complexity : Nat → F

namespace FloatLists
variable {F : Type} (A : Arith F)

/-- `- pos * log2(P/rows) - neg * log2(N/rows)`, `gmsl.py:94-95` and `101-102` -/
def defRuleCost (P N pos neg : Nat) : F :=
  A.sub (A.scaleNeg pos (A.logF (A.quot P (P + N)))) (A.scale neg (A.logF (A.quot N (P + N))))

/-- `candidate_value`, `gmsl.py:107-118` -/
def candidateValue (p n : Nat) : F :=
  if p + n = 0 then A.zero
  else if p = 0 then A.add (A.scaleNeg n (A.logF (A.quot n (p + n)))) (A.complexity (p + n))
  else if n = 0 then A.add (A.scaleNeg p (A.logF (A.quot p (p + n)))) (A.complexity (p + n))
  else A.add (A.sub (A.scaleNeg p (A.logF (A.quot p (p + n)))) (A.scale n (A.logF (A.quot n (p + n))))) (A.complexity (p + n))

/-- `_compute_delta_data_model_candidate`, `gmsl.py:79-122` and `psld.py:45-88`: the list afterwards, the gain and the positives and
negatives that the candidate covers at its position -/
def deltaData (sl : SubgroupList) (c : Cand) : Except PyErr (SubgroupList × F × Nat × Nat) :=
  let P := sl.dist.1
  let N := sl.dist.2 - sl.dist.1
  let before := defRuleCost A P N sl.defPos.ones sl.defNeg.ones
  match sl.add c.sub c.pos c.neg with
  | .error e => .error e
  | .ok sl1 =>
    let after := defRuleCost A P N sl1.defPos.ones sl1.defNeg.ones
    let p := (sl1.pos.getLastD []).ones
    let n := (sl1.neg.getLastD []).ones
    .ok (sl1.deleteLast, A.sub (A.sub before after) (candidateValue A p n), p, n)

/-- the loop over the selectors of the description, `gmsl.py:139-142` -/
def selectorCost (df : Frame) : List Selector → F → Except PyErr F
  | [], r => .ok r
  | s :: rest, r => match df.col s.attr with
    | .error e => .error e
    | .ok col => selectorCost df rest (A.sub r (A.logN col.dedup.length))

/-- `_compute_delta_model_candidate`, `gmsl.py:125-143` -/
def deltaModel (df : Frame) (sl : SubgroupList) (s : Subgroup) : Except PyErr F :=
  let len := s.description.sels.length
  let r := A.sub (A.sub (A.code sl.len) (A.code (sl.len + 1))) (A.code len)
  let comb := (df.cols.length - 1).choose len
  if comb ≥ 2 ^ 64 then .error .typeError
  else selectorCost A df s.description.sels (A.sub r (A.logN comb))

/-- the evaluation of a candidate in GMSL, `gmsl.py:247-253` -/
def gmslEval (df : Frame) (sl : SubgroupList) (_ : Unit) (c : Cand) : Except PyErr (SubgroupList × F × Bool) :=
  match deltaData A sl c with
  | .error e => .error e
  | .ok (sl1, ddm, p, n) =>
    if p + n = 0 then .ok (sl1, A.zero, true)
    else match deltaModel A df sl1 c.sub with
      | .error e => .error e
      | .ok dm => .ok (sl1, A.divPow (A.add dm ddm) (p + n), true)

/-- GMSL -/
def gmsl (df : Frame) : Miner F Unit where
  zero := A.zero
  gt := A.gt
  eval := gmslEval A df
  init := ()
  update := fun _ _ => ()
  deletes := fun best s => best.isRefinement s false
  maxSize := none

/-- the evaluation of a candidate in PSLD, `psld.py:143-150` -/
def psldEval (df : Frame) (sl : SubgroupList) (_ : Unit) (c : Cand) : Except PyErr (SubgroupList × F × Bool) :=
  match deltaData A sl c with
  | .error e => .error e
  | .ok (sl1, ddm, p, n) =>
    if p + n = 0 then .ok (sl1, A.zero, decide (p > 0))
    else match deltaModel A df sl1 c.sub with
      | .error e => .error e
      | .ok dm => .ok (sl1, A.divPow (A.add dm ddm) (p + n), decide (p > 0))

/-- PSLD -/
def psld (df : Frame) (slMaxSize : Nat) : Miner F Unit where
  zero := A.zero
  gt := A.gt
  eval := psldEval A df
  init := ()
  update := fun _ _ => ()
  deletes := fun best s => best.isRefinement s false || s.isRefinement best false
  maxSize := some slMaxSize

/-- `_compute_positive_overlap_factor`, `dslm.py:50-71` (`dflt` = 1.0), and `_compute_negative_overlap_factor`, `dslm.py:74-95`
(`dflt` = 0.0) -/
def overlapFactor (dflt : F) (b : Bits) (counter : List Nat) : F :=
  if b.ones = 0 then dflt
  else
    let r := overlapSums counter b
    if r.1 = 0 then A.zero else A.quot r.2 r.1

/-- the evaluation of a candidate in DSLM, `dslm.py:156-170` -/
def dslmEval (df : Frame) (maxPos maxNeg : F) (sl : SubgroupList) (ctr : List Nat × List Nat) (c : Cand) :
    Except PyErr (SubgroupList × F × Bool) :=
  match deltaData A sl c with
  | .error e => .error e
  | .ok (sl1, ddm, p, n) =>
    if p + n = 0 then .ok (sl1, A.zero, decide (p > 0) && A.le A.one maxPos && A.le A.one maxNeg)
    else match deltaModel A df sl1 c.sub with
      | .error e => .error e
      | .ok dm =>
        let po := overlapFactor A A.one c.pos ctr.1
        let no := overlapFactor A A.zero c.neg ctr.2
        .ok (sl1, A.mul (A.mul (A.divPow (A.add dm ddm) (p + n)) (A.sub A.one po)) (A.sub A.one no),
          decide (p > 0) && A.le po maxPos && A.le no maxNeg)

/-- DSLM -/
def dslm (df : Frame) (slMaxSize : Nat) (maxPos maxNeg : F) : Miner F (List Nat × List Nat) where
  zero := A.zero
  gt := A.gt
  eval := dslmEval A df maxPos maxNeg
  init := (List.replicate df.nrows 0, List.replicate df.nrows 0)
  update := fun ctr c => (bumpCounter ctr.1 c.pos, bumpCounter ctr.2 c.neg)
  deletes := fun best s => best.isRefinement s false || s.isRefinement best false
  maxSize := some slMaxSize

end FloatLists
end Verif
