import Mathlib.Data.Nat.Choose.Sum
import Verif.Spec.Nominal
/-! How many descriptions a search can meet. -/
namespace Verif.Spec

/-- the number of non-empty sets of at most `d` of `m` columns -/
def columnSets (m d : Nat) : Nat := ((List.range d).map (fun j => m.choose (j + 1))).sum

/-- `rows` rows, `m` columns besides the target, descriptions of at most `d` selectors: every row has one description for each set of columns -/
def workBound (rows m d : Nat) : Nat := rows * columnSets m d

end Verif.Spec
