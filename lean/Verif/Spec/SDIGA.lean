import Verif.Spec.Nominal
import Verif.Model.SDIGA
/-! Specification vocabulary for SDIGA. -/
namespace Verif.Spec
open Classical

/-- what SDIGA accepts besides a nominal frame: no attribute is called `fitness`, and every attribute has at most 65535 values -/
structure SDIGAFrame (df : Frame) (target : Str × Str) : Prop where
  nominal : NominalFrame df target
  noFitness : ∀ c ∈ df.cols, c.1 ≠ target.1 → c.1 ≠ c!"fitness"
  small : ∀ c ∈ df.cols, c.1 ≠ target.1 → c.2.dedup.length ≤ 65535

/-- one gene per attribute other than the target, at most the number of different values of the attribute -/
def IsChrom (df : Frame) (tname : Str) (c : Chrom) : Prop :=
  List.Forall₂ (fun col g => g ≤ (col.2.dedup).length) (df.cols.filter (fun e => e.1 ≠ tname)) c

/-- an order of the population that `sort_values(ascending=False)` or `nlargest` may leave: the same rows, best first -/
def BestFirst (sort : List Ind → List Ind) : Prop :=
  ∀ l, (sort l).Perm l ∧ (sort l).Pairwise (fun a b => b.fit ≤ a.fit)

/-- a mutated position and its new gene -/
def IsMutation (df : Frame) (tname : Str) (m : Option (Nat × Nat)) : Prop :=
  ∀ i g, m = some (i, g) → ∃ col, (df.cols.filter (fun e => e.1 ≠ tname))[i]? = some col ∧ g ≤ col.2.dedup.length

/-- random choices that can happen in one turn of the outer loop -/
structure Possible (cfg : SDIGAConfig) (df : Frame) (tname : Str) (o : SDIGAChoice) : Prop where
  size : o.pop.length = cfg.popSize
  pop : ∀ c ∈ o.pop, IsChrom df tname c
  sort : BestFirst o.sort
  /-- two different positions, if there are two -/
  cross : 2 ≤ (df.cols.filter (fun e => e.1 ≠ tname)).length → ∀ k a b, (o.gens k).cross = some (a, b) →
    a < b ∧ b < (df.cols.filter (fun e => e.1 ≠ tname)).length
  mut1 : ∀ k, IsMutation df tname (o.gens k).mut1
  mut2 : ∀ k, IsMutation df tname (o.gens k).mut2
  gsort : ∀ k, BestFirst (o.gens k).sort

/-- share of the rows with the target among the rows covered by `X` (0 if `X` covers none) -/
noncomputable def confOf (df : Frame) (target : Str × Str) (X : List Selector) : Rat :=
  (tpOf df target X : Rat) / ((tpOf df target X : Rat) + (fpOf df target X : Rat))

/-- share of the rows covered by `X` with the target among all the rows -/
noncomputable def suppOf (df : Frame) (target : Str × Str) (X : List Selector) : Rat := (tpOf df target X : Rat) / (df.nrows : Rat)

/-- row `i` is covered by one of the patterns -/
def CoveredBy (df : Frame) (l : List Pattern) (i : Nat) : Prop := ∃ p ∈ l, Covers df p.sels i

/-- number of rows with the target covered by `X` and by none of the patterns `l` -/
noncomputable def freshTp (df : Frame) (target : Str × Str) (l : List Pattern) (X : List Selector) : Nat :=
  ((List.range df.nrows).filter (fun i => decide (Covers df X i ∧ ¬ CoveredBy df l i ∧ MatchesAt df (targetSel target) i))).length

/-- number of rows without the target covered by `X` and by none of the patterns `l` -/
noncomputable def freshFp (df : Frame) (target : Str × Str) (l : List Pattern) (X : List Selector) : Nat :=
  ((List.range df.nrows).filter (fun i => decide (Covers df X i ∧ ¬ CoveredBy df l i ∧ ¬ MatchesAt df (targetSel target) i))).length

/-- weighted mean of the support among the rows not covered by `l` (0 if there are none) and of the confidence -/
noncomputable def fitOf (cfg : SDIGAConfig) (df : Frame) (target : Str × Str) (l : List Pattern) (X : List Selector) : Rat :=
  (cfg.supW * ((freshTp df target l X : Rat) / ((freshTp df target l [] : Rat) + (freshFp df target l [] : Rat)))
    + cfg.confW * confOf df target X) / (cfg.supW + cfg.confW)

/-- a set of `attribute = value` conditions, at most one per attribute, not on the target, with values of the data -/
structure IsRule (df : Frame) (target : Str × Str) (X : List Selector) : Prop where
  form : ∀ s ∈ X, s.op = .equal ∧ s.attr ≠ target.1 ∧ ∃ col, df.cols.lookup s.attr = some col ∧ s.val ∈ col
  one : ∀ s ∈ X, ∀ t ∈ X, s.attr = t.attr → s = t

/-- the line of the result file for the pattern `p` found after the patterns `l` -/
structure LineOK (cfg : SDIGAConfig) (df : Frame) (target : Str × Str) (l : List Pattern) (p : Pattern) (x : SDIGALine) : Prop where
  subgroup : x.subgroup = ⟨p, targetSel target⟩
  fitness : x.fitness = fitOf cfg df target l p.sels
  tp : x.tp = tpOf df target p.sels
  fp : x.fp = fpOf df target p.sels
  TP : x.TP = tpOf df target []
  FP : x.FP = fpOf df target []
  utp : x.utp = freshTp df target l p.sels
  ufp : x.ufp = freshFp df target l p.sels
  TPu : x.TPu = freshTp df target l []
  FPu : x.FPu = freshFp df target l []

/-- number of sets of conditions with at most one condition `attribute = value` per attribute: the product over the attributes other
than the target of (number of different values + 1) -/
def ruleCount (df : Frame) (tname : Str) : Nat :=
  ((df.cols.filter (fun e => e.1 ≠ tname)).map (fun c => c.2.dedup.length + 1)).prod

end Verif.Spec
