import Verif.Lemmas.RelabelQFinder
import Verif.Props.Shuffle
/-! Property C97 for QFinder. -/
namespace Verif
open Spec
section
open Classical
variable {ρ : Str → Str} {ν : Str → Str → Str} {df : Frame} {target : Str × Str}

/-- C97, QFinder, when no column has more values than `cats` allows and, before and after, the printed selectors can be read back: on the renamed data with the renamed target, whatever the
states of the two objects, `fit` raises exactly when it did, with the same exception; otherwise it ranks the renamed candidates in the same order, with the same credibility values, and returns
the renamed result, in the same order. -/
theorem C97_qfinder (hρ : Function.Injective ρ) (hν : ∀ a, Function.Injective (ν a)) (hf : NominalFrame df target) (hs : SafeTexts df target)
    (hs' : SafeTexts (renameFrame ρ ν df) (renameTarget ρ ν target)) (cfg : QFConfig) (hc : WithinCategories cfg df target) (st st' : QFState) :
    (∀ e, QFinder.fit cfg st df target = .error e → QFinder.fit cfg st' (renameFrame ρ ν df) (renameTarget ρ ν target) = .error e) ∧
    ∀ r, QFinder.fit cfg st df target = .ok r → ∃ r', QFinder.fit cfg st' (renameFrame ρ ν df) (renameTarget ρ ν target) = .ok r' ∧
      r'.cands = r.cands.map (renamePattern ρ ν) ∧ r'.top = r.top.map (renameEntry ρ ν) ∧ r'.table.map (·.2) = r.table.map (·.2) := by
  have hf' := relabel_nominal (renameFrame_relabelled hρ hν hf) hf
  have hQ := QFinder.occurring_rename (cfg := cfg) hρ hν hf hc
  have hr : ∀ p ∈ QFinder.occurring df (QFinder.candidates cfg df target.1), Pattern.Sorted p.sels ∧ ∀ s ∈ p.sels, TextEq s := fun p hp =>
    ⟨(QFinder.occurring_readable hf hs p hp).sorted, (QFinder.occurring_readable hf hs p hp).texts⟩
  rw [QFinder.fit_eq hf hs, QFinder.fit_eq hf' hs']
  have e2 : (renameTarget ρ ν target).1 = ρ target.1 := rfl
  rw [e2, hQ]
  generalize QFinder.occurring df (QFinder.candidates cfg df target.1) = Q at hr ⊢
  rw [List.length_map, List.map_map]
  have he : Q.map (qfEntryOf cfg (renameFrame ρ ν df) (renameTarget ρ ν target) Q.length ∘ renamePattern ρ ν) = (Q.map (qfEntryOf cfg df target Q.length)).map (renameEntry ρ ν) := by
    rw [List.map_map]
    exact List.map_congr_left (fun p hp => QFinder.qfEntry_rename hρ hν hf cfg _ (hr p hp).1 (hr p hp).2)
  have hk := QFinder.keeps_rename hρ hν
  rw [he, QFinder.rankPatterns_map hk, QFinder.selectTopK_map hk]
  · cases QFinder.selectTopK cfg (QFinder.rankPatterns cfg (Q.map (qfEntryOf cfg df target Q.length))) with
    | error e => exact ⟨fun e' h => h, fun r h => by simp at h⟩
    | ok top =>
      refine ⟨fun e h => by simp at h, fun r h => ?_⟩
      simp only [Except.ok.injEq] at h
      subst h
      refine ⟨_, rfl, rfl, rfl, ?_⟩
      simp only [List.map_map]
      refine List.map_congr_left (fun p hp => ?_)
      simp only [Function.comp_apply]
      rw [QFinder.qfEntry_rename hρ hν hf cfg Q.length (hr p hp).1 (hr p hp).2]
      rfl
  · intro e hm
    obtain ⟨p, hp, rfl⟩ := List.mem_map.1 ((QFinder.rankPatterns_perm cfg _).mem_iff.1 hm)
    exact hr p hp
end

/-! ## a case that meets the hypotheses -/

open QFinderWitness in
theorem safeA_renamed : SafeTexts (renameFrame swapNames swapValues dfA) (renameTarget swapNames swapValues tA) :=
  safeTexts_of (relabel_nominal (renameFrame_relabelled swap_injective.1 swap_injective.2 nominalA) nominalA) (by decide +kernel)

open QFinderWitness in
/-- the four patterns of the result of `dfA`, with the columns `a` and `b` exchanged -/
example : ∃ r r', QFinder.fit cfgA .init dfA tA = .ok r ∧ QFinder.fit cfgA .init (renameFrame swapNames swapValues dfA) (renameTarget swapNames swapValues tA) = .ok r' ∧
    r'.top = r.top.map (renameEntry swapNames swapValues) ∧ r.top.map (·.pat.sels) = [[sx, sy], [sx, sz], [sw, sy], [sw, sz]] ∧
    (r'.top.map (·.pat.sels)).head? = some [⟨c!"a", .equal, .str c!"y"⟩, ⟨c!"b", .equal, .str c!"x"⟩] := by
  obtain ⟨r, h1, _⟩ := C38_selection nominalA safeA (cfg := cfgA) (by decide) pvalA .init
  obtain ⟨r', h2, _, h3, _⟩ := (C97_qfinder swap_injective.1 swap_injective.2 nominalA safeA safeA_renamed cfgA (fun _ _ _ => .inr rfl) .init .init).2 r h1
  have e : shown (QFinder.fit cfgA .init dfA tA) = [[sx, sy], [sx, sz], [sw, sy], [sw, sz]] := by decide +kernel
  rw [h1] at e
  have e' : (shown (QFinder.fit cfgA .init (renameFrame swapNames swapValues dfA) (renameTarget swapNames swapValues tA))).head? =
      some [⟨c!"a", .equal, .str c!"y"⟩, ⟨c!"b", .equal, .str c!"x"⟩] := by decide +kernel
  rw [h2] at e'
  exact ⟨r, r', h1, h2, h3, e, e'⟩

end Verif
