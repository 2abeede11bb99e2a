import Verif.Lemmas.RelabelIDSD
import Verif.Props.IDSD
import Verif.Props.Relabel
/-! Property C97 for IDSD. -/
namespace Verif
open Spec
section
open Classical
variable {ρ : Str → Str} {ν : Str → Str → Str} {df : Frame} {target : Str × Str}

/-- C97, IDSD, when no column has more values than `cats` allows: on the renamed data with the renamed target `fit` raises exactly when it did, with the same exception; otherwise it evaluates
the renamed descriptions in the same order and returns the renamed list, in the same order, with the same ranks, odds ratios and credibility values, and the three counters are equal. -/
theorem C97_idsd (hρ : Function.Injective ρ) (hν : ∀ a, Function.Injective (ν a)) (hf : NominalFrame df target) (cfg : IDSDConfig)
    (hc : ∀ c ∈ df.cols, c.1 ≠ target.1 → (c.2.dedup.length : Int) ≤ cfg.cats ∨ cfg.cats = -1) :
    (∀ e, IDSD.fit cfg .init df target = .error e → IDSD.fit cfg .init (renameFrame ρ ν df) (renameTarget ρ ν target) = .error e) ∧
    ∀ r, IDSD.fit cfg .init df target = .ok r → ∃ r', IDSD.fit cfg .init (renameFrame ρ ν df) (renameTarget ρ ν target) = .ok r' ∧
      r'.top = r.top.map (renameIDSD ρ ν) ∧ r'.calls = r.calls.map (renamePattern ρ ν) ∧ r'.visited = r.visited ∧ r'.nonUnique = r.nonUnique ∧ r'.pruned = r.pruned := by
  obtain ⟨A, h⟩ := IDSD.fit_rename (cfg := cfg) hρ hν hf hc
  rw [h]
  constructor
  · intro e he
    rw [he]
    rfl
  · intro r hr
    rw [hr]
    exact ⟨_, rfl, rfl, rfl, rfl, rfl, rfl⟩
end

/-! ## a case that meets the hypotheses -/

open IDSDWitness in
/-- the list of `dfA`, with the columns `a` and `b` exchanged -/
example : ∃ r r', IDSD.fit cfgA .init dfA tA = .ok r ∧ IDSD.fit cfgA .init (renameFrame swapNames swapValues dfA) (renameTarget swapNames swapValues tA) = .ok r' ∧
    r'.top = r.top.map (renameIDSD swapNames swapValues) ∧ (shown (.ok r)).head? = some ([⟨c!"a", .equal, .str c!"x"⟩], 5) ∧
    (shown (.ok r')).head? = some ([⟨c!"b", .equal, .str c!"x"⟩], 5) := by
  obtain ⟨r, h1, _⟩ := C36_size_sorted (cfg := cfgA) nominalA occursA (by decide)
  obtain ⟨r', h2, h3, _⟩ := (C97_idsd swap_injective.1 swap_injective.2 nominalA cfgA (fun _ _ _ => .inr rfl)).2 r h1
  have e : (shown (IDSD.fit cfgA .init dfA tA)).head? = some ([⟨c!"a", .equal, .str c!"x"⟩], 5) := by decide +kernel
  rw [h1] at e
  have e' : (shown (IDSD.fit cfgA .init (renameFrame swapNames swapValues dfA) (renameTarget swapNames swapValues tA))).head? = some ([⟨c!"b", .equal, .str c!"x"⟩], 5) := by decide +kernel
  rw [h2] at e'
  exact ⟨r, r', h1, h2, h3, e, e'⟩

end Verif
