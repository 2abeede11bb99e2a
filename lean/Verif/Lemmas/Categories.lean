import Verif.Model.IDSD
import Mathlib.Data.List.Range
import Mathlib.Data.List.Perm.Subperm
/-! The text for the grouped values is not a value of the column. -/
namespace Verif
open IDSD

theorem otherLoop_spec (vals : List Val) : ∀ (fuel : Nat) (s : Str), (∃ k, k < fuel ∧ Val.str (s ++ List.replicate k '_') ∉ vals) →
    Val.str (otherLoop vals fuel s) ∉ vals := by
  intro fuel
  induction fuel with
  | zero => rintro s ⟨k, hk, _⟩; omega
  | succ fuel ih =>
    rintro s ⟨k, hk, h⟩
    rw [otherLoop]
    split
    · rename_i hc
      apply ih
      rw [List.contains_iff_mem] at hc
      cases k with
      | zero => simp at h; exact absurd hc h
      | succ k =>
        refine ⟨k, by omega, ?_⟩
        have : s ++ c!"_" ++ List.replicate k '_' = s ++ List.replicate (k + 1) '_' := by
          rw [List.replicate_succ]; simp
        rw [this]; exact h
    · rename_i hc
      rw [List.contains_iff_mem] at hc
      exact hc

/-- among `n + 1` lengthened texts one is not a value -/
theorem exists_fresh (vals : List Val) (s : Str) : ∃ k, k < vals.length + 1 ∧ Val.str (s ++ List.replicate k '_') ∉ vals := by
  by_contra hc
  push Not at hc
  have hsub : (List.range (vals.length + 1)).map (fun k => Val.str (s ++ List.replicate k '_')) ⊆ vals := by
    intro v hv
    obtain ⟨k, hk, rfl⟩ := List.mem_map.1 hv
    exact hc k (List.mem_range.1 hk)
  have hn : ((List.range (vals.length + 1)).map (fun k => Val.str (s ++ List.replicate k '_'))).Nodup := by
    apply List.nodup_range.map
    intro a b h
    simp only [Val.str.injEq, List.append_cancel_left_eq] at h
    have := congrArg List.length h
    simpa using this
  have := (List.subperm_of_subset hn hsub).length_le
  simp at this

end Verif
