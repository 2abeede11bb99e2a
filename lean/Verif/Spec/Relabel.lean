import Verif.Spec.Nominal
/-! Specification vocabulary: data frames with other names of columns and values, and with several copies of every row. -/
namespace Verif.Spec

/-- a cell with another name for its text -/
def renameVal (f : Str → Str) : Val → Val
  | .str v => .str (f v)
  | v => v

/-- the selector with another name for its attribute and its value -/
def renameSel (ρ : Str → Str) (ν : Str → Str → Str) (s : Selector) : Selector := ⟨ρ s.attr, s.op, renameVal (ν s.attr) s.val⟩

/-- the pattern with other names (the order of its selectors is that of the new names) -/
def renamePattern (ρ : Str → Str) (ν : Str → Str → Str) (p : Pattern) : Pattern := .new (p.sels.map (renameSel ρ ν))

/-- the target with other names -/
def renameTarget (ρ : Str → Str) (ν : Str → Str → Str) (t : Str × Str) : Str × Str := (ρ t.1, ν t.1 t.2)

/-- `df'` has `k` copies of every row of `df`, the columns renamed by `ρ` and the values of column `a` renamed by `ν a`, rows and columns in any order: row `i` of `df'` is a copy of
row `π[i]` of `df` -/
structure Relabelled (ρ : Str → Str) (ν : Str → Str → Str) (k : Nat) (df df' : Frame) (π : List Nat) : Prop where
  copies : 0 < k
  /-- different columns keep different names -/
  names : Function.Injective ρ
  /-- different values of a column keep different names -/
  values : ∀ a, Function.Injective (ν a)
  /-- `π` lists every row number of `df` `k` times -/
  perm : π.Perm (List.replicate k (List.range df.nrows)).flatten
  rows : df'.nrows = k * df.nrows
  columns : (df'.cols.map (·.1)).Perm (df.cols.map (fun c => ρ c.1))
  cells : ∀ name col, df.cols.lookup name = some col →
    ∃ col', df'.cols.lookup (ρ name) = some col' ∧ col'.map some = π.map (fun i : Nat => (col[i]?).map (renameVal (ν name)))

/-- the data frame with the columns renamed by `ρ` and the values of column `a` renamed by `ν a` -/
def renameFrame (ρ : Str → Str) (ν : Str → Str → Str) (df : Frame) : Frame := ⟨df.nrows, df.cols.map (fun c => (ρ c.1, c.2.map (renameVal (ν c.1))))⟩

/-- `df'` has `k` copies of every row of `df`, rows and columns in any order: row `i` of `df'` is a copy of row `π[i]` of `df` -/
structure Copied (k : Nat) (df df' : Frame) (π : List Nat) : Prop where
  copies : 0 < k
  /-- `π` lists every row number of `df` `k` times -/
  perm : π.Perm (List.replicate k (List.range df.nrows)).flatten
  rows : df'.nrows = k * df.nrows
  columns : (df'.cols.map (·.1)).Perm (df.cols.map (·.1))
  cells : ∀ name col, df.cols.lookup name = some col → ∃ col', df'.cols.lookup name = some col' ∧ col'.map some = π.map (fun i : Nat => col[i]?)

end Verif.Spec
