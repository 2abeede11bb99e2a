import Verif.Spec.Coverage
import Verif.Model.Nominal
/-! Specification vocabulary for the algorithms on nominal attributes. -/
namespace Verif.Spec
open Classical

/-- the selector `attribute = 'value'` of the target -/
def targetSel (target : Str × Str) : Selector := ⟨target.1, .equal, .str target.2⟩

/-- number of rows covered by `X` in which the target appears -/
noncomputable def tpOf (df : Frame) (target : Str × Str) (X : List Selector) : Nat :=
  ((List.range df.nrows).filter (fun i => decide (Covers df X i ∧ MatchesAt df (targetSel target) i))).length

/-- number of rows covered by `X` in which the target does not appear -/
noncomputable def fpOf (df : Frame) (target : Str × Str) (X : List Selector) : Nat :=
  ((List.range df.nrows).filter (fun i => decide (Covers df X i ∧ ¬ MatchesAt df (targetSel target) i))).length

/-- a description that the algorithms may report: `attribute = 'text'` selectors on attributes other than the target -/
def Describes (target : Str × Str) (X : List Selector) : Prop :=
  X ≠ [] ∧ ∀ s ∈ X, s.attr ≠ target.1 ∧ s.op = .equal ∧ ∃ v, s.val = .str v

/-- some row of the data is covered -/
def OccursIn (df : Frame) (X : List Selector) : Prop := ∃ i, i < df.nrows ∧ Covers df X i

/-- the thresholds are met -/
def Frequent (th : Thresholds) (tp fp : Nat) : Prop :=
  match th with
  | .tpFp a b => a ≤ tp ∧ b ≤ fp
  | .n m => m ≤ tp + fp

/-- a data frame of texts with one cell per row and column, different column names, and a target column -/
structure NominalFrame (df : Frame) (target : Str × Str) : Prop where
  wf : WF df
  names : (df.cols.map (·.1)).Nodup
  texts : ∀ c ∈ df.cols, ∀ v ∈ c.2, ∃ s, v = .str s
  target : target.1 ∈ df.cols.map (·.1)

/-- different attribute-value pairs of the data have different `attribute + repr(value)` texts -/
def KeysFaithful (df : Frame) (target : Str × Str) : Prop :=
  ∀ c ∈ df.cols, ∀ c' ∈ df.cols, c.1 ≠ target.1 → c'.1 ≠ target.1 → ∀ v ∈ c.2, ∀ v' ∈ c'.2,
    c.1 ++ v.repr = c'.1 ++ v'.repr → c.1 = c'.1 ∧ v = v'

end Verif.Spec
