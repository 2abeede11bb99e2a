import Verif.Model.Pattern
/-! Specification vocabulary: rows covered by selectors, occurrence of a text in a text. -/
namespace Verif.Spec

/-- `sep` occurs in `s` (Python `sep in s`) -/
def Occurs (sep s : Str) : Prop := ∃ a b, s = a ++ sep ++ b

/-- every column of the data frame has one cell per row -/
def WF (df : Frame) : Prop := ∀ c ∈ df.cols, c.2.length = df.nrows

/-- the data frame has a column with the attribute name of the selector, and its cell at row `i` satisfies the comparison -/
def MatchesAt (df : Frame) (s : Selector) (i : Nat) : Prop :=
  ∃ col v, df.cols.lookup s.attr = some col ∧ col[i]? = some v ∧ s.op.evaluate v s.val = .ok true

/-- row `i` is covered by a set of selectors: it matches each of them -/
def Covers (df : Frame) (sels : List Selector) (i : Nat) : Prop := ∀ s ∈ sels, MatchesAt df s i

end Verif.Spec
