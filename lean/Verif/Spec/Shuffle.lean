import Verif.Spec.Nominal
/-! Specification vocabulary: two data frames with the same data in another order. -/
namespace Verif.Spec

/-- `df'` has the rows of `df` in another order and at least its columns: row `i` of `df'` is row `π[i]` of `df`. The order of the columns is not
restricted. -/
structure Includes (df df' : Frame) (π : List Nat) : Prop where
  /-- `π` lists every row number of `df` once -/
  perm : π.Perm (List.range df.nrows)
  rows : df'.nrows = df.nrows
  cells : ∀ name col, df.cols.lookup name = some col →
    ∃ col', df'.cols.lookup name = some col' ∧ col'.map some = π.map (fun i : Nat => col[i]?)

/-- `df'` is `df` with its rows and its columns in another order -/
structure Shuffled (df df' : Frame) (π : List Nat) : Prop extends Includes df df' π where
  columns : (df'.cols.map (·.1)).Perm (df.cols.map (·.1))

end Verif.Spec
