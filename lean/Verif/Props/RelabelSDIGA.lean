import Verif.Lemmas.RelabelSDIGA
import Verif.Props.RelabelLists
/-! Property C97 for SDIGA. -/
namespace Verif
open Spec

/-- the same outcome under other names: both go on, both fail with the same exception, or both end with the renamed patterns and the renamed lines, in the same order and with the same numbers -/
def Spec.RenamedSDIGA (ρ : Str → Str) (ν : Str → Str → Str) : Option (Except PyErr SDIGAState) → Option (Except PyErr SDIGAState) → Prop
  | none, none => True
  | some (.error e), some (.error e') => e' = e
  | some (.ok r), some (.ok r') => r'.cases = r.cases.map (renamePattern ρ ν) ∧ r'.file = r.file.map (renameLine ρ ν) ∧ r'.selected = r.selected ∧ r'.unselected = r.unselected
  | _, _ => False

namespace SDIGA
variable {ρ : Str → Str} {ν : Str → Str → Str} {df : Frame} {target : Str × Str}

theorem renamed_of {σ : Nat → Nat ≃ Nat} {f : Str → Str} {x y : Option (Except PyErr SDIGAState)} (h : RecodedEnd σ ρ ν f x y) : RenamedSDIGA ρ ν x y := by
  rcases x with _ | (e | r) <;> rcases y with _ | (e' | r') <;> first | exact h | exact ⟨h.cases, h.file, h.selected, h.unselected⟩

theorem sized_of {cfg : SDIGAConfig} {o : SDIGAChoice} (h : Possible cfg df target.1 o) : Sized (encodeDict df target.1).length o where
  pop := fun c hc => by
    have := (h.pop c hc).length_eq
    simp only [encodeDict, otherCols, List.length_map]
    exact this.symm
  sort := fun l => (h.sort l).1
  gsort := fun k l => (h.gsort k l).1
  cross := by
    simp only [encodeDict, otherCols, List.length_map]
    exact h.cross

theorem newKeys_mono (hm : ∀ a, StrictMono (ν a)) {c : Str × List Val} (hc : ∀ v ∈ c.2, ∃ s, v = .str s) : newKeys ν c = oldKeys ν c := by
  have hν : ∀ a, Function.Injective (ν a) := fun a => (hm a).injective
  have hp := keys_perm hν hc
  obtain ⟨vs, e1, p1⟩ := keys_sorted hc
  obtain ⟨ws, e2, p2⟩ := keys_sorted (col := c.2.map (renameVal (ν c.1))) (fun v hv => by
    obtain ⟨w, hw, rfl⟩ := List.mem_map.1 hv
    obtain ⟨s, rfl⟩ := hc w hw
    exact ⟨_, rfl⟩)
  have e1' : oldKeys ν c = (vs.map (ν c.1)).map Val.str := by
    unfold oldKeys
    rw [e1, List.map_map, List.map_map]
    rfl
  unfold newKeys at hp ⊢
  rw [e1', e2] at hp ⊢
  congr 1
  have p1' : (vs.map (ν c.1)).Pairwise (· < ·) := by
    rw [List.pairwise_map]
    exact p1.imp (fun h => hm c.1 h)
  refine List.Perm.eq_of_pairwise (le := (· < ·)) (fun x y _ _ h1 h2 => absurd (lt_trans h1 h2) (lt_irrefl _)) p2 p1' ?_
  exact ((List.map_perm_map_iff (fun a b h => by cases h; rfl)).1 hp).symm

theorem geneNames_mono (hm : ∀ a, StrictMono (ν a)) {c : Str × List Val} (hc : ∀ v ∈ c.2, ∃ s, v = .str s) : GeneNames ρ ν (Equiv.refl Nat) c := by
  intro g
  rw [newKeys_mono hm hc, Equiv.refl_apply]
  unfold decodeGene
  by_cases h : g ≠ 0
  · have e0 : (oldKeys ν c)[g - 1]? = (groupKeys c.2)[g - 1]?.map (renameVal (ν c.1)) := by simp [oldKeys]
    rw [if_pos h, if_pos h, e0]
    cases (groupKeys c.2)[g - 1]? <;> rfl
  · rw [if_neg h, if_neg h]; rfl

theorem cellCodes_mono (hm : ∀ a, StrictMono (ν a)) {c : Str × List Val} (hc : ∀ v ∈ c.2, ∃ s, v = .str s) : CellCodes ν (Equiv.refl Nat) c := by
  intro v hv
  rw [newKeys_mono hm hc]
  have hv' : v ∈ groupKeys c.2 := (mem_groupKeys _ _).2 hv
  have hi := List.idxOf_lt_length_of_mem hv'
  have hn := keys_nodup (fun a => (hm a).injective) hc
  have hi' : (groupKeys c.2).idxOf v < (oldKeys ν c).length := by simpa [oldKeys] using hi
  have := hn.idxOf_getElem _ hi'
  have e : (oldKeys ν c)[(groupKeys c.2).idxOf v] = renameVal (ν c.1) v := by simp [oldKeys]
  rw [e] at this
  unfold code
  rw [this]
  rfl

theorem otherCols_text (hf : NominalFrame df target) {j : Nat} {c : Str × List Val} (hj : (otherCols df target.1)[j]? = some c) : ∀ v ∈ c.2, ∃ s, v = .str s :=
  hf.texts c (List.mem_filter.1 (List.mem_of_getElem? hj)).1

/-! ### the changed choices can happen -/

theorem bestFirst_recode {σ : Nat → Nat ≃ Nat} {sort : List Ind → List Ind} (h : BestFirst sort) : BestFirst (fun l => (sort (l.map (recodeInd (fun j => (σ j).symm)))).map (recodeInd σ)) := by
  intro l
  refine ⟨?_, ?_⟩
  · have := (h (l.map (recodeInd (fun j => (σ j).symm)))).1.map (recodeInd σ)
    rwa [recodeInd_symm'] at this
  · rw [List.pairwise_map]
    exact (h _).2

theorem newKeys_len (hν : ∀ a, Function.Injective (ν a)) {c : Str × List Val} (hc : ∀ v ∈ c.2, ∃ s, v = .str s) : (c.2.map (renameVal (ν c.1))).dedup.length = c.2.dedup.length :=
  dedup_rename (hν c.1) hc

theorem nameCodes_le (hν : ∀ a, Function.Injective (ν a)) {c : Str × List Val} (hc : ∀ v ∈ c.2, ∃ s, v = .str s) {cols : List (Str × List Val)} {j : Nat} (hj : cols[j]? = some c) {g : Nat}
    (hg : g ≤ c.2.dedup.length) : nameCodes ν cols j g ≤ (c.2.map (renameVal (ν c.1))).dedup.length := by
  unfold nameCodes
  simp only [hj]
  rw [codePerm_apply (keys_nodup hν hc) (newKeys_nodup c) (keys_perm hν hc)]
  have := codeMap_le (keys_perm hν hc) (g := g) (by simpa [oldKeys, groupKeys_len] using hg)
  rwa [show (newKeys ν c).length = (c.2.map (renameVal (ν c.1))).dedup.length from groupKeys_len _] at this

theorem possible_recode (hρ : Function.Injective ρ) (hν : ∀ a, Function.Injective (ν a)) (hf : NominalFrame df target) {cfg : SDIGAConfig} {o : SDIGAChoice} (h : Possible cfg df target.1 o) :
    Possible cfg (renameFrame ρ ν df) (ρ target.1) (recodeChoice (nameCodes ν (otherCols df target.1)) o) := by
  have hcols : (renameFrame ρ ν df).cols.filter (fun e => e.1 ≠ ρ target.1) = (otherCols df target.1).map (renameCol ρ ν) := otherCols_rename hρ _
  have hlen : ((renameFrame ρ ν df).cols.filter (fun e => e.1 ≠ ρ target.1)).length = (df.cols.filter (fun e => e.1 ≠ target.1)).length := by
    rw [hcols, List.length_map]; rfl
  have hmut : ∀ m, IsMutation df target.1 m → IsMutation (renameFrame ρ ν df) (ρ target.1) (m.map (fun m => (m.1, nameCodes ν (otherCols df target.1) m.1 m.2))) := by
    intro m hm i g he
    cases m with
    | none => cases he
    | some ig =>
      obtain ⟨i', g'⟩ := ig
      simp only [Option.map_some, Option.some.injEq, Prod.mk.injEq] at he
      obtain ⟨rfl, rfl⟩ := he
      obtain ⟨c, hc, hg⟩ := hm i' g' rfl
      have hj : (otherCols df target.1)[i']? = some c := hc
      refine ⟨renameCol ρ ν c, by rw [hcols, List.getElem?_map, hj]; rfl, ?_⟩
      exact nameCodes_le hν (otherCols_text hf hj) hj hg
  refine ⟨by simpa [recodeChoice] using h.size, ?_, bestFirst_recode h.sort, ?_, fun k => hmut _ (h.mut1 k), fun k => hmut _ (h.mut2 k), fun k => bestFirst_recode (h.gsort k)⟩
  · intro c hc
    obtain ⟨d, hd, rfl⟩ := List.mem_map.1 hc
    have := h.pop d hd
    unfold IsChrom at this ⊢
    rw [hcols]
    rw [List.forall₂_iff_get] at this ⊢
    obtain ⟨h1, h2⟩ := this
    have h1' : (otherCols df target.1).length = d.length := h1
    refine ⟨by rw [List.length_map, recode_length]; exact h1, fun i hi hi' => ?_⟩
    have hj : i < (otherCols df target.1).length := by simpa using hi
    have hjd : i < d.length := by omega
    have e1 : (otherCols df target.1)[i]? = some (otherCols df target.1)[i] := List.getElem?_eq_getElem hj
    have e2 : (recode (nameCodes ν (otherCols df target.1)) d)[i]? = some (nameCodes ν (otherCols df target.1) i d[i]) := by
      rw [recode_get, List.getElem?_eq_getElem hjd]; rfl
    have e3 : (recode (nameCodes ν (otherCols df target.1)) d)[i] = nameCodes ν (otherCols df target.1) i d[i] := (List.getElem?_eq_some_iff.1 e2).2
    have hg := h2 i hj hjd
    simp only [List.get_eq_getElem] at hg ⊢
    rw [e3, List.getElem_map]
    exact nameCodes_le hν (otherCols_text hf e1) e1 hg
  · rw [hlen]
    exact h.cross

end SDIGA

section
variable {ρ : Str → Str} {ν : Str → Str → Str} {df : Frame} {target : Str × Str}

/-- C97, SDIGA: whatever can be the result of `fit` with some random choices is, under other names of columns and values, the result with other choices that can happen: the renamed patterns and lines in the same
order, with the same fitness values and counts, or the same exception. -/
theorem C97_sdiga (hρ : Function.Injective ρ) (hν : ∀ a, Function.Injective (ν a)) (hf : SDIGAFrame df target) (hn : ∀ c ∈ df.cols, c.1 ≠ target.1 → ρ c.1 ≠ c!"fitness") (cfg : SDIGAConfig)
    (o : Nat → SDIGAChoice) (ho : ∀ k, Possible cfg df target.1 (o k)) (st : SDIGAState) (hst : st.file = []) :
    ∃ o' : Nat → SDIGAChoice, (∀ k, Possible cfg (renameFrame ρ ν df) (renameTarget ρ ν target).1 (o' k)) ∧
      ∀ fuel, RenamedSDIGA ρ ν (SDIGA.fit cfg o fuel st df target) (SDIGA.fit cfg o' fuel st (renameFrame ρ ν df) (renameTarget ρ ν target)) := by
  refine ⟨fun k => SDIGA.recodeChoice (SDIGA.nameCodes ν (otherCols df target.1)) (o k), fun k => SDIGA.possible_recode hρ hν hf.nominal (ho k), fun fuel => ?_⟩
  have hcode : ∀ (j : Nat) c, (otherCols df target.1)[j]? = some c → SDIGA.nameCodes ν (otherCols df target.1) j = SDIGA.codePerm (SDIGA.oldKeys ν c) (SDIGA.newKeys ν c) := by
    intro j c hj
    unfold SDIGA.nameCodes
    simp only [hj]
  refine SDIGA.renamed_of (SDIGA.fit_rename hρ hν hf.nominal (SDIGA.dictNames hρ hf.nominal (SDIGA.nameCodes_zero _) ?_ hf.noFitness hn) ?_ (fun k => SDIGA.sized_of (ho k)) fuel st hst)
  · intro j c hj
    rw [hcode j c hj]
    exact SDIGA.geneNames_perm hν (SDIGA.otherCols_text hf.nominal hj)
  · intro j c hj
    rw [hcode j c hj]
    have hm := List.mem_filter.1 (List.mem_of_getElem? hj)
    exact SDIGA.cellCodes_perm hν (SDIGA.otherCols_text hf.nominal hj) (hf.small c hm.1 (by simpa using hm.2))

/-- C97, SDIGA: if the new names of the values of each attribute are in the same order as the old ones, the same random choices give the same results under the new names. -/
theorem C97_sdiga_order (hρ : Function.Injective ρ) (hm : ∀ a, StrictMono (ν a)) (hf : NominalFrame df target) (hn : ∀ c ∈ df.cols, c.1 ≠ target.1 → c.1 ≠ c!"fitness" ∧ ρ c.1 ≠ c!"fitness")
    (cfg : SDIGAConfig) (o : Nat → SDIGAChoice) (ho : ∀ k, Possible cfg df target.1 (o k)) (st : SDIGAState) (hst : st.file = []) (fuel : Nat) :
    RenamedSDIGA ρ ν (SDIGA.fit cfg o fuel st df target) (SDIGA.fit cfg o fuel st (renameFrame ρ ν df) (renameTarget ρ ν target)) := by
  have := SDIGA.fit_rename (σ := fun _ => Equiv.refl Nat) hρ (fun a => (hm a).injective) hf
    (SDIGA.dictNames hρ hf (fun _ => rfl) (fun j c hj => SDIGA.geneNames_mono hm (SDIGA.otherCols_text hf hj)) (fun c h1 h2 => (hn c h1 h2).1) (fun c h1 h2 => (hn c h1 h2).2))
    (fun j c hj => SDIGA.cellCodes_mono hm (SDIGA.otherCols_text hf hj)) (cfg := cfg) (fun k => SDIGA.sized_of (ho k)) fuel st hst
  simp only [SDIGA.recodeChoice_refl] at this
  exact SDIGA.renamed_of this
end

/-- the hypotheses are met: the run of `sdigaDemoRun` with the columns `a` and `b` exchanged and a letter put before every value -/
example : RenamedSDIGA swapNames (fun _ s => 'k' :: s) sdigaDemoRun
    (SDIGA.fit sdigaDemoCfg (fun _ => sdigaDemoChoice) 20 ⟨0, 0, [], [], [], 0, 0, 0, 0⟩ (renameFrame swapNames (fun _ s => 'k' :: s) demoFrame) (c!"t", c!"kyes")) ∧
    (endState sdigaDemoRun).map (fun st => st.cases.map (renamePattern swapNames (fun _ s => 'k' :: s))) = some [⟨[⟨c!"b", .equal, .str c!"ky"⟩]⟩] := by
  refine ⟨C97_sdiga_order swap_injective.1 (fun _ a b h => ?_) sdigaDemoReady.frame.nominal ?_ _ _ sdigaDemoReady.choices _ rfl _, ?_⟩
  · exact List.cons_lt_cons_iff.2 (Or.inr ⟨rfl, h⟩)
  · intro c hc _
    simp only [demoFrame, List.mem_cons, List.not_mem_nil, or_false] at hc
    rcases hc with rfl | rfl | rfl <;> decide +kernel
  · decide +kernel

/-- and with the values `x` and `y` exchanged as well: other choices give the renamed results -/
example : ∃ o' : Nat → SDIGAChoice, (∀ k, Possible sdigaDemoCfg (renameFrame swapNames (fun _ => Equiv.swap c!"x" c!"y") demoFrame) c!"t" (o' k)) ∧
    RenamedSDIGA swapNames (fun _ => Equiv.swap c!"x" c!"y") sdigaDemoRun
      (SDIGA.fit sdigaDemoCfg o' 20 ⟨0, 0, [], [], [], 0, 0, 0, 0⟩ (renameFrame swapNames (fun _ => Equiv.swap c!"x" c!"y") demoFrame)
        (renameTarget swapNames (fun _ => Equiv.swap c!"x" c!"y") (c!"t", c!"yes"))) := by
  obtain ⟨o', h1, h2⟩ := C97_sdiga (ρ := swapNames) (ν := fun _ => Equiv.swap c!"x" c!"y") swap_injective.1 (fun _ => Equiv.injective _) sdigaDemoReady.frame (by
    intro c hc _
    simp only [demoFrame, List.mem_cons, List.not_mem_nil, or_false] at hc
    rcases hc with rfl | rfl | rfl <;> decide +kernel) _ _ sdigaDemoReady.choices ⟨0, 0, [], [], [], 0, 0, 0, 0⟩ rfl
  exact ⟨o', h1, h2 20⟩
end Verif
