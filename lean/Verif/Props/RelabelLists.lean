import Verif.Lemmas.RelabelLists
import Verif.Props.ShuffleLists
/-! Property C97 for the subgroup-list algorithms. -/
namespace Verif
open Spec

section
open Classical
variable {ρ : Str → Str} {ν : Str → Str → Str} {df : Frame} {target : Str × Str}

/-- C97, GMSL: with other names of columns and values, and with the candidates renamed, the same lists under the new names (or the same exception). -/
theorem C97_gmsl (hρ : Function.Injective ρ) (hν : ∀ a, Function.Injective (ν a)) (hf : NominalFrame df target) (beta : ℝ) (maxSl : Nat) (cs : List Cand)
    (hcs : ∀ c ∈ cs, TextSubgroup c.sub) :
    listFit (gmsl (renameFrame ρ ν df) beta) maxSl (renameFrame ρ ν df) (renameTarget ρ ν target) (.ok (cs.map (renameCand ρ ν))) =
      (listFit (gmsl df beta) maxSl df target (.ok cs)).map (List.map (renameList ρ ν)) :=
  listFit_rename hρ hν hf (followsNames_gmsl hρ hν hf beta) maxSl cs hcs

/-- C97, PSLD: the same. -/
theorem C97_psld (hρ : Function.Injective ρ) (hν : ∀ a, Function.Injective (ν a)) (hf : NominalFrame df target) (beta : ℝ) (size maxSl : Nat) (cs : List Cand)
    (hcs : ∀ c ∈ cs, TextSubgroup c.sub) :
    listFit (psld (renameFrame ρ ν df) beta size) maxSl (renameFrame ρ ν df) (renameTarget ρ ν target) (.ok (cs.map (renameCand ρ ν))) =
      (listFit (psld df beta size) maxSl df target (.ok cs)).map (List.map (renameList ρ ν)) :=
  listFit_rename hρ hν hf (followsNames_psld hρ hν hf beta size) maxSl cs hcs

/-- C97, DSLM: the same. -/
theorem C97_dslm (hρ : Function.Injective ρ) (hν : ∀ a, Function.Injective (ν a)) (hf : NominalFrame df target) (beta : ℝ) (size : Nat) (maxPos maxNeg : ℝ) (maxSl : Nat)
    (cs : List Cand) (hcs : ∀ c ∈ cs, TextSubgroup c.sub) :
    listFit (dslm (renameFrame ρ ν df) beta size maxPos maxNeg) maxSl (renameFrame ρ ν df) (renameTarget ρ ν target) (.ok (cs.map (renameCand ρ ν))) =
      (listFit (dslm df beta size maxPos maxNeg) maxSl df target (.ok cs)).map (List.map (renameList ρ ν)) :=
  listFit_rename hρ hν hf (followsNames_dslm hρ hν hf beta size maxPos maxNeg) maxSl cs hcs
end

/-! ## a case that meets the hypotheses -/

theorem twoCand_text : ∀ c ∈ [twoCand, twoCand], TextSubgroup c.sub := by
  intro c hc
  simp only [List.mem_cons, List.not_mem_nil, or_false, or_self] at hc
  subst hc
  refine ⟨?_, by decide +kernel, ⟨rfl, c!"y", rfl⟩⟩
  intro x hx
  simp only [twoCand, List.mem_singleton] at hx
  subst hx
  exact ⟨rfl, c!"x", rfl⟩

/-- other names for the data of `twoFrame`: `a` is called `b`, and `x` is called `z` and conversely -/
def Spec.twoValues (_ s : Str) : Str := Equiv.swap c!"x" c!"z" s

theorem twoRenamed : (twoFrame.cols.map (·.1) = [c!"a", c!"t"]) ∧ (renameFrame swapNames twoValues twoFrame).cols.map (·.1) = [c!"b", c!"t"] ∧
    renameSubgroup swapNames twoValues twoCand.sub = ⟨⟨[⟨c!"b", .equal, .str c!"z"⟩]⟩, ⟨c!"t", .equal, .str c!"y"⟩⟩ := by decide +kernel

theorem renameList_entries (ρ : Str → Str) (ν : Str → Str → Str) (l : SubgroupList) : entriesOf (renameList ρ ν l) = (entriesOf l).map (renameCand ρ ν) := by
  unfold entriesOf renameList
  rw [List.map_zipWith, List.zipWith_map_left]
  rfl

/-- GMSL finds the same two lists under the new names -/
example (beta : ℝ) : ∃ res, listFit (gmsl (renameFrame swapNames twoValues twoFrame) beta) 2 (renameFrame swapNames twoValues twoFrame) (renameTarget swapNames twoValues twoTarget)
    (.ok ([twoCand, twoCand].map (renameCand swapNames twoValues))) = .ok res ∧
    res.map entriesOf = [[renameCand swapNames twoValues twoCand], [renameCand swapNames twoValues twoCand]] := by
  obtain ⟨⟨res, h1, h2⟩, _⟩ := C40_duplicate_lines beta 1 Nat.one_pos 1 1 zero_le_one zero_le_one
  refine ⟨res.map (renameList swapNames twoValues), ?_, ?_⟩
  · rw [C97_gmsl (ν := twoValues) swap_injective.1 (fun _ => Equiv.injective _) twoNominal beta 2 _ twoCand_text, h1]
    rfl
  · rw [List.map_map, show entriesOf ∘ renameList swapNames twoValues = (List.map (renameCand swapNames twoValues)) ∘ entriesOf from funext (renameList_entries _ _), ← List.map_map, h2]
    rfl
end Verif
