import Verif.Model.Cache
/-! Specification vocabulary for the cached functions. -/
namespace Verif.Spec
open Cache

/-- all arguments have the type `int` -/
def AllInts (c : Call) : Prop := (∀ a ∈ c.pos, ∃ n, a = .int n) ∧ ∀ e ∈ c.kw, ∃ n, e.2 = .int n

/-- the keys of the calls of a history that returned a value, the latest first -/
def returned {V : Type} (size : Nat) (f : Call → Except PyErr V) : List Call → List Key
  | [] => []
  | c :: earlier => match result size f earlier c with
    | .ok _ => key c :: returned size f earlier
    | .error _ => returned size f earlier

/-- a list without its repetitions: the first occurrences stay -/
def firsts : List Key → List Key
  | [] => []
  | k :: l => k :: (firsts l).filter (fun x => x ≠ k)

end Verif.Spec
