import Verif.Lemmas.ShuffleLists
import Verif.Lemmas.ShuffleSDIGA
import Verif.Props.Shuffle
import Verif.Props.ListMiner
import Verif.Props.Files
/-! Property C94, continued: the subgroup-list algorithms and SDIGA on rows and columns in another order. -/
namespace Verif
open Spec

section
variable {df df' : Frame} {π : List Nat} {target : Str × Str}

/-- the candidates of the second run are those of the first, in the same order, with the bits of their rows in the order `π` -/
def Spec.SameCandidates (π : List Nat) (cs cs' : List Cand) : Prop :=
  cs'.length = cs.length ∧ ∀ (k : Nat) (c c' : Cand), cs[k]? = some c → cs'[k]? = some c' →
    c'.sub = c.sub ∧ c'.pos.map some = π.map (fun i : Nat => c.pos[i]?) ∧ c'.neg.map some = π.map (fun i : Nat => c.neg[i]?)

/-- the lists of the second run are those of the first: the same subgroups in the same order, and bit `i` of every bit array is bit `π[i]` of the first run's -/
structure Spec.SameRowsList (π : List Nat) (l l' : SubgroupList) : Prop where
  subs : l'.subs = l.subs
  dist : l'.dist = l.dist
  defPos : ∀ i j : Nat, π[i]? = some j → l'.defPos[i]? = l.defPos[j]?
  defNeg : ∀ i j : Nat, π[i]? = some j → l'.defNeg[i]? = l.defNeg[j]?
  bits : ∀ (k : Nat) (b b' : Bits), ((l.pos[k]? = some b ∧ l'.pos[k]? = some b') ∨ (l.neg[k]? = some b ∧ l'.neg[k]? = some b') ∨
    (l.origPos[k]? = some b ∧ l'.origPos[k]? = some b') ∨ (l.origNeg[k]? = some b ∧ l'.origNeg[k]? = some b')) → ∀ i j : Nat, π[i]? = some j → b'[i]? = b[j]?
  lengths : l'.pos.length = l.pos.length ∧ l'.neg.length = l.neg.length ∧ l'.origPos.length = l.origPos.length ∧ l'.origNeg.length = l.origNeg.length

theorem reorder_get? {n : Nat} (hp : π.Perm (List.range n)) {b : Bits} (hb : b.length = n) {i j : Nat} (hj : π[i]? = some j) : (reorder π b)[i]? = b[j]? := by
  have hlt : j < n := List.mem_range.1 (hp.mem_iff.1 (List.mem_of_getElem? hj))
  unfold reorder
  rw [List.getElem?_map, hj, Option.map_some, Bits.get_lt b j (by omega), List.getElem?_eq_getElem (by omega)]

theorem reorder_of {n : Nat} (hp : π.Perm (List.range n)) {b b' : Bits} (hb : b.length = n) (h : b'.map some = π.map (fun i : Nat => b[i]?)) : b' = reorder π b := by
  apply List.map_injective_iff.2 (Option.some_injective _)
  rw [h]
  unfold reorder
  rw [List.map_map]
  apply List.map_congr_left
  intro i hi
  have hlt : i < n := List.mem_range.1 (hp.mem_iff.1 hi)
  rw [Function.comp_apply, Bits.get_lt b i (by omega), List.getElem?_eq_getElem (by omega)]

theorem candidates_of {n : Nat} (hp : π.Perm (List.range n)) {cs cs' : List Cand} (hc : ∀ c ∈ cs, CandOk n c) (h : SameCandidates π cs cs') : cs' = cs.map (Spec.Cand.reorder π) := by
  apply List.ext_getElem (by simp [h.1])
  intro k h1 h2
  have hk : k < cs.length := by simpa using h2
  obtain ⟨a1, a2, a3⟩ := h.2 k cs[k] cs'[k] (List.getElem?_eq_getElem hk) (List.getElem?_eq_getElem h1)
  obtain ⟨o1, o2⟩ := hc _ (List.getElem_mem hk)
  rw [List.getElem_map]
  unfold Spec.Cand.reorder
  rw [← a1, ← reorder_of hp o1 a2, ← reorder_of hp o2 a3]

theorem sameList_of {n : Nat} (hp : π.Perm (List.range n)) {l : SubgroupList} (he : Even n l) : SameRowsList π l (Spec.SubgroupList.reorder π l) := by
  refine ⟨rfl, rfl, fun i j hj => reorder_get? hp he.defPos hj, fun i j hj => reorder_get? hp he.defNeg hj, ?_, ?_⟩
  · intro k b b' h i j hj
    have key : ∀ L : List Bits, (∀ b ∈ L, b.length = n) → L[k]? = some b ∧ (L.map (reorder π))[k]? = some b' → b'[i]? = b[j]? := by
      rintro L hL ⟨h1, h2⟩
      rw [List.getElem?_map, h1, Option.map_some] at h2
      cases h2
      exact reorder_get? hp (hL b (List.mem_of_getElem? h1)) hj
    rcases h with h | h | h | h
    · exact key _ he.pos h
    · exact key _ he.neg h
    · exact key _ he.origPos h
    · exact key _ he.origNeg h
  · simp [Spec.SubgroupList.reorder]

/-- the two runs have the same outcome: the same exception, or the same lists up to the order of the rows -/
def Spec.SameLists (π : List Nat) : Except PyErr (List SubgroupList) → Except PyErr (List SubgroupList) → Prop
  | .error e, .error e' => e' = e
  | .ok r, .ok r' => List.Forall₂ (SameRowsList π) r r'
  | _, _ => False

variable {G C : Type} {M M' : Miner G C} {φ : C → C} {K : C → Prop}

theorem listFit_shuffled (h : Shuffled df df' π) (hf : NominalFrame df target) (hF : Follows df.nrows π M M' φ K) (k : Nat) {cs cs' : List Cand}
    (hc : ∀ c ∈ cs, c.pos.length = df.nrows ∧ c.neg.length = df.nrows) (hs : SameCandidates π cs cs') :
    SameLists π (listFit M k df target (.ok cs)) (listFit M' k df' target (.ok cs')) := by
  obtain ⟨a, b⟩ := listFit_reorder h hf hF k (.ok cs) (fun l hl => by cases hl; exact hc)
  rw [candidates_of h.perm hc hs]
  simp only [Except.map] at a
  rw [a]
  cases hv : listFit M k df target (.ok cs) with
  | error e => exact rfl
  | ok r =>
    show List.Forall₂ _ _ _
    rw [List.forall₂_map_right_iff, List.forall₂_same]
    intro l hl
    exact sameList_of h.perm (b _ hv l hl)

theorem listRun_shuffled (h : Shuffled df df' π) (hf : NominalFrame df target) (hF : Follows df.nrows π M M' φ K) (k : Nat) {input input' : Str} {cs cs' : List Cand} {log : Str}
    (hi : loadCandidates df.nrows input = .ok (cs, log)) (hi' : loadCandidates df.nrows input' = .ok (cs', log)) (hs : SameCandidates π cs cs') :
    listRun M' k df' target input' = listRun M k df target input := by
  have hc := C61_lengths _ _ _ _ hi
  rw [candidates_of h.perm hc hs] at hi'
  exact listRun_reorder h hf hF k input input' hi hi' hc

/-- C94, GMSL: on shuffled rows and columns, with the same candidates (their bits in the new order of the rows), `fit` has the same outcome: the same exception or the same subgroup lists, in the same order, up
to the order of the rows. -/
theorem C94_gmsl (h : Shuffled df df' π) (hf : NominalFrame df target) (beta : ℝ) (k : Nat) (cs cs' : List Cand) (hc : ∀ c ∈ cs, c.pos.length = df.nrows ∧ c.neg.length = df.nrows)
    (hs : SameCandidates π cs cs') : SameLists π (listFit (gmsl df beta) k df target (.ok cs)) (listFit (gmsl df' beta) k df' target (.ok cs')) :=
  listFit_shuffled h hf (follows_gmsl h hf.wf beta) k hc hs

/-- C94, PSLD: the same. -/
theorem C94_psld (h : Shuffled df df' π) (hf : NominalFrame df target) (beta : ℝ) (size k : Nat) (cs cs' : List Cand) (hc : ∀ c ∈ cs, c.pos.length = df.nrows ∧ c.neg.length = df.nrows)
    (hs : SameCandidates π cs cs') : SameLists π (listFit (psld df beta size) k df target (.ok cs)) (listFit (psld df' beta size) k df' target (.ok cs')) :=
  listFit_shuffled h hf (follows_psld h hf.wf beta size) k hc hs

/-- C94, DSLM: the same. -/
theorem C94_dslm (h : Shuffled df df' π) (hf : NominalFrame df target) (beta : ℝ) (size k : Nat) (maxPos maxNeg : ℝ) (cs cs' : List Cand)
    (hc : ∀ c ∈ cs, c.pos.length = df.nrows ∧ c.neg.length = df.nrows) (hs : SameCandidates π cs cs') :
    SameLists π (listFit (dslm df beta size maxPos maxNeg) k df target (.ok cs)) (listFit (dslm df' beta size maxPos maxNeg) k df' target (.ok cs')) :=
  listFit_shuffled h hf (follows_dslm h hf.wf beta size maxPos maxNeg) k hc hs

/-- C94, GMSL, PSLD and DSLM: when the two input files give the same candidates (up to the order of the bits) and the same messages, the output files are equal, character by character. -/
theorem C94_list_files (h : Shuffled df df' π) (hf : NominalFrame df target) (beta maxPos maxNeg : ℝ) (size k : Nat) (input input' : Str) (cs cs' : List Cand) (log : Str)
    (hi : loadCandidates df.nrows input = .ok (cs, log)) (hi' : loadCandidates df.nrows input' = .ok (cs', log)) (hs : SameCandidates π cs cs') :
    listRun (gmsl df' beta) k df' target input' = listRun (gmsl df beta) k df target input ∧
    listRun (psld df' beta size) k df' target input' = listRun (psld df beta size) k df target input ∧
    listRun (dslm df' beta size maxPos maxNeg) k df' target input' = listRun (dslm df beta size maxPos maxNeg) k df target input :=
  ⟨listRun_shuffled h hf (follows_gmsl h hf.wf beta) k hi hi' hs, listRun_shuffled h hf (follows_psld h hf.wf beta size) k hi hi' hs,
    listRun_shuffled h hf (follows_dslm h hf.wf beta size maxPos maxNeg) k hi hi' hs⟩
end

/-! ### the hypotheses can be met: the data of `C40_duplicate_lines` with every second row first -/

/-- rows 0, 2, 4, … and then 1, 3, 5, … -/
def Spec.twoOrder : List Nat := [0, 2, 4, 6, 8, 10, 12, 14, 1, 3, 5, 7, 9, 11, 13, 15]

/-- `twoFrame` in this order of the rows, with the columns swapped -/
def Spec.twoShuffled : Frame :=
  ⟨16, [(c!"t", (List.replicate 4 (.str c!"y") ++ List.replicate 4 (.str c!"n")) ++ (List.replicate 4 (.str c!"y") ++ List.replicate 4 (.str c!"n"))),
    (c!"a", (List.replicate 4 (.str c!"x") ++ List.replicate 4 (.str c!"z")) ++ (List.replicate 4 (.str c!"x") ++ List.replicate 4 (.str c!"z")))]⟩

def Spec.twoCand' : Cand :=
  ⟨twoCand.sub, (List.replicate 4 true ++ List.replicate 4 false) ++ (List.replicate 4 true ++ List.replicate 4 false), List.replicate 16 false⟩

theorem twoShuffled_ok : Shuffled twoFrame twoShuffled twoOrder := by
  refine shuffled_of (by decide +kernel) rfl ?_ (by decide +kernel)
  intro c hc
  simp only [twoFrame, List.mem_cons, List.not_mem_nil, or_false] at hc
  rcases hc with rfl | rfl <;> decide +kernel

theorem twoSame : SameCandidates twoOrder [twoCand, twoCand] [twoCand', twoCand'] := by
  refine ⟨rfl, fun k c c' h1 h2 => ?_⟩
  have hc : c = twoCand ∧ c' = twoCand' := by
    match k, h1, h2 with
    | 0, h1, h2 => simp at h1 h2; exact ⟨h1.symm, h2.symm⟩
    | 1, h1, h2 => simp at h1 h2; exact ⟨h1.symm, h2.symm⟩
    | k + 2, h1, _ => simp at h1
  rw [hc.1, hc.2]
  exact ⟨rfl, by decide +kernel, by decide +kernel⟩

/-- both runs choose the candidate twice, with the bits in the order of their rows -/
example (beta : ℝ) : ∃ r r', listFit (gmsl twoFrame beta) 2 twoFrame twoTarget (.ok [twoCand, twoCand]) = .ok r ∧
    listFit (gmsl twoShuffled beta) 2 twoShuffled twoTarget (.ok [twoCand', twoCand']) = .ok r' ∧ List.Forall₂ (SameRowsList twoOrder) r r' ∧
    r.map entriesOf = [[twoCand], [twoCand]] := by
  obtain ⟨⟨r, h1, h2⟩, -⟩ := C40_duplicate_lines beta 1 (by omega) 0 0 (le_refl _) (le_refl _)
  have h := C94_gmsl twoShuffled_ok twoNominal beta 2 [twoCand, twoCand] [twoCand', twoCand'] (by
    intro c hc; simp only [List.mem_cons, List.not_mem_nil, or_false, or_self] at hc; rw [hc]; exact ⟨by decide +kernel, by decide +kernel⟩) twoSame
  rw [h1] at h
  cases hv : listFit (gmsl twoShuffled beta) 2 twoShuffled twoTarget (.ok [twoCand', twoCand']) with
  | error e => rw [hv] at h; exact h.elim
  | ok r' =>
    rw [hv] at h
    exact ⟨r, r', h1, rfl, h, h2⟩

/-! ## SDIGA -/

/-- two runs that are observably the same: both still running, the same exception, or the same subgroups, counters and lines of the result file -/
def Spec.SameSDIGA : Option (Except PyErr SDIGAState) → Option (Except PyErr SDIGAState) → Prop
  | none, none => True
  | some (.error e), some (.error e') => e' = e
  | some (.ok r), some (.ok r') => r'.cases = r.cases ∧ r'.file = r.file ∧ r'.selected = r.selected ∧ r'.unselected = r.unselected
  | _, _ => False

/-- C94, SDIGA: on rows in another order (and the columns in the same order: a random number stands for a position), with the same random numbers, `fit` does the same: the same exception, or the same
subgroups with the same counters and the same lines of the result file, in the same order. -/
theorem C94_sdiga {df df' : Frame} {π : List Nat} {target : Str × Str} (h : Shuffled df df' π) (hf : NominalFrame df target) (hn : df'.cols.map (·.1) = df.cols.map (·.1))
    (cfg : SDIGAConfig) (o : Nat → SDIGAChoice) (fuel : Nat) (st : SDIGAState) : SameSDIGA (SDIGA.fit cfg o fuel st df target) (SDIGA.fit cfg o fuel st df' target) := by
  have := SDIGA.fit_same cfg h hf hn o fuel st
  revert this
  cases SDIGA.fit cfg o fuel st df target with
  | none => cases SDIGA.fit cfg o fuel st df' target with
    | none => exact fun h => h
    | some r => cases r <;> exact fun h => h.elim
  | some r => cases SDIGA.fit cfg o fuel st df' target with
    | none => cases r <;> exact fun h => h.elim
    | some r' => cases r <;> cases r' <;> first | exact fun h => h | exact fun h => h.elim | exact fun h => ⟨h.cases, h.file, h.selected, h.unselected⟩

/-- `demoFrame` from the last row to the first -/
def Spec.demoBackwards : Frame := ⟨4, demoFrame.cols.map (fun c => (c.1, c.2.reverse))⟩

/-- the runs of the example end with one subgroup -/
example : SameSDIGA sdigaDemoRun (SDIGA.fit sdigaDemoCfg (fun _ => sdigaDemoChoice) 20 ⟨0, 0, [], [], [], 0, 0, 0, 0⟩ demoBackwards (c!"t", c!"yes")) ∧
    (endState sdigaDemoRun).map (fun st => st.cases.length) = some 1 := by
  refine ⟨C94_sdiga (π := [3, 2, 1, 0]) ?_ sdigaDemoReady.frame.nominal (by decide +kernel) _ _ _ _, by decide +kernel⟩
  refine shuffled_of (by decide +kernel) rfl ?_ (by decide +kernel)
  intro c hc
  simp only [demoFrame, List.mem_cons, List.not_mem_nil, or_false] at hc
  rcases hc with rfl | rfl | rfl <;> decide +kernel
end Verif
