import Verif.Lemmas.IDSDFit
/-! IDSD: a second `fit`. -/
namespace Verif.IDSD
open Spec BSD

/-- the state `r` with other appearances and counters that start at `a`, `b`, `d` -/
def shift (A : List (Selector × Bits)) (a b d : Nat) (r : IDSDState) : IDSDState :=
  { r with visited := a + r.visited, nonUnique := b + r.nonUnique, pruned := d + r.pruned, apps := A }

section
open Classical
variable {df : Frame} {target : Str × Str} {mask : List Bool} {cfg : IDSDConfig}

theorem visit_shift (hm : MaskOK df target mask) (hn : 0 < df.nrows) {A : List (Selector × Bits)} (hA : AppsOK df target A) (a b d c : Nat)
    {p : Pattern} {X : List Selector} (hX : ∀ s, s ∈ p.sels ↔ s ∈ X) (hs : ∀ s ∈ X, s ∈ (selectorPairs df target.1).map (·.1)) (st : IDSDState)
    (ha : AppsOK df target st.apps) :
    visit cfg c (tpOf df target []) (fpOf df target []) mask p (covBits df X) (shift A a b d st) =
      (visit cfg c (tpOf df target []) (fpOf df target []) mask p (covBits df X) st).map (fun r => (shift A a b d r.1, r.2)) := by
  unfold visit
  simp only
  split
  · rfl
  · split
    · simp only [Except.map, shift, Nat.add_assoc]
    · rename_i cov _ _
      simp only [shift]
      by_cases h1 : st.top.length = cfg.num ∧ lastRankPos st.top = true ∧ ¬ (cov ≥ cfg.covT)
      · rw [if_pos h1]
        refine (if_pos h1).trans ?_
        simp only [Except.map, Nat.add_assoc]
      · rw [if_neg h1]
        refine (if_neg h1).trans ?_
        by_cases h2 : p.len = c
        · simp only [if_pos h2]
          rw [covBits_congr (df := df) (fun s => (hX s).symm), handle_eq cfg hm hn (fun s h => hs s ((hX s).1 h)) _ hA,
            handle_eq cfg hm hn (fun s h => hs s ((hX s).1 h)) _ (by exact ha)]
          simp only [Except.map, Nat.add_assoc]
        · simp only [if_neg h2]
          simp only [Except.map, Nat.add_assoc]

theorem visit_apps {c TP FP : Nat} {p : Pattern} {app : Bits} {st st' : IDSDState} {b : Bool} (h : visit cfg c TP FP mask p app st = .ok (st', b)) :
    st'.apps = st.apps := by
  have hh : ∀ {st1 st2 : IDSDState}, handle cfg TP FP mask p app st1 = .ok st2 → st2.apps = st1.apps := by
    intro st1 st2 h
    unfold handle at h
    simp only at h
    split at h
    · cases h
    · cases h; rfl
  unfold visit at h
  simp only at h
  split at h
  · cases h
  · by_cases h1 : ‹Rat› = 0
    · rw [if_pos h1] at h
      cases h; rfl
    · rw [if_neg h1] at h
      by_cases h2 : st.top.length = cfg.num ∧ lastRankPos st.top = true ∧ ¬ (‹Rat› ≥ cfg.covT)
      · have h := (if_pos h2).symm.trans h
        cases h; rfl
      · have h := (if_neg h2).symm.trans h
        by_cases h3 : p.len = c
        · simp only [if_pos h3] at h
          split at h
          · cases h
          · rename_i h4
            cases h
            have := hh h4
            exact this
        · simp only [if_neg h3] at h
          cases h; rfl

theorem growLoop_apps {c TP FP : Nat} (l : List Selector) : ∀ {p : Pattern} {app : Bits} {st st' : IDSDState},
    growLoop cfg c TP FP mask l p app st = .ok st' → st'.apps = st.apps := by
  induction l with
  | nil => intro p app st st' h; cases h; rfl
  | cons s l ih =>
    intro p app st st' h
    rw [growLoop] at h
    split at h
    · cases h
    · split at h
      · cases h
      · rename_i hv
        exact (ih h).trans (visit_apps hv)
      · rename_i hv
        split at h
        · cases h
        · rename_i h1
          exact ((ih h).trans (ih h1)).trans (visit_apps hv)

theorem growLoop_shift (hf : NominalFrame df target) (hm : MaskOK df target mask) (hn : 0 < df.nrows) {A : List (Selector × Bits)} (hA : AppsOK df target A)
    (a b d c : Nat) (l : List Selector) (hl : ∀ s ∈ l, s ∈ (selectorPairs df target.1).map (·.1)) :
    ∀ (Y : List Selector) (st : IDSDState), (∀ s ∈ Y, s ∈ (selectorPairs df target.1).map (·.1)) → AppsOK df target st.apps →
    growLoop cfg c (tpOf df target []) (fpOf df target []) mask l (Pattern.new Y) (covBits df Y) (shift A a b d st) =
      (growLoop cfg c (tpOf df target []) (fpOf df target []) mask l (Pattern.new Y) (covBits df Y) st).map (shift A a b d) := by
  have htext : ∀ s ∈ (selectorPairs df target.1).map (·.1), TextEq s := fun s hs => ((mem_sels hf).1 hs).1.2
  induction l with
  | nil => intro Y st _ _; rfl
  | cons s rest ih =>
    intro Y st hY ha
    have hsm := hl s (by simp)
    have hY' : ∀ t ∈ Y ++ [s], t ∈ (selectorPairs df target.1).map (·.1) := fun t ht => by
      rcases List.mem_append.1 ht with h | h
      · exact hY t h
      · rw [List.mem_singleton.1 h]; exact hsm
    have ih := ih (fun t ht => hl t (by simp [ht]))
    rw [growLoop, growLoop]
    have e1 : (shift A a b d st).apps.lookup s = some (covBits df [s]) := hA.lookup s hsm
    rw [e1, ha.lookup s hsm]
    simp only
    rw [add_new (fun t ht => htext t (hY t ht)) (htext s hsm), alignAnd_covBits,
      visit_shift hm hn hA a b d c (mem_new (fun t ht => htext t (hY' t ht))) hY' st ha]
    cases hv : visit cfg c (tpOf df target []) (fpOf df target []) mask (Pattern.new (Y ++ [s])) (covBits df (Y ++ [s])) st with
    | error e => rfl
    | ok r =>
      obtain ⟨st1, g⟩ := r
      have ha1 : AppsOK df target st1.apps := by rw [visit_apps hv]; exact ha
      cases g
      · exact ih Y st1 hY ha1
      · simp only [Except.map]
        rw [ih (Y ++ [s]) st1 hY' ha1]
        cases hg : growLoop cfg c (tpOf df target []) (fpOf df target []) mask rest (Pattern.new (Y ++ [s])) (covBits df (Y ++ [s])) st1 with
        | error e => rfl
        | ok st2 =>
          simp only [Except.map]
          rw [ih Y st2 hY (by rw [growLoop_apps rest hg]; exact ha1)]
          rfl

theorem deepen_shift (hf : NominalFrame df target) (hm : MaskOK df target mask) (hn : 0 < df.nrows) {A : List (Selector × Bits)} (hA : AppsOK df target A)
    (a b d : Nat) (cs : List Nat) : ∀ (st : IDSDState), AppsOK df target st.apps →
    deepen cfg (tpOf df target []) (fpOf df target []) mask ((selectorPairs df target.1).map (·.1)) df.nrows cs (shift A a b d st) =
      (deepen cfg (tpOf df target []) (fpOf df target []) mask ((selectorPairs df target.1).map (·.1)) df.nrows cs st).map (shift A a b d) := by
  induction cs with
  | nil => intro st _; rfl
  | cons c cs ih =>
    intro st ha
    rw [deepen, deepen]
    unfold growTree
    rw [replicate_eq_covBits, visit_shift hm hn hA a b d c (mem_new (by simp)) (by simp) st ha]
    cases hv : visit cfg c (tpOf df target []) (fpOf df target []) mask (Pattern.new []) (covBits df []) st with
    | error e => rfl
    | ok r =>
      obtain ⟨st1, g⟩ := r
      have ha1 : AppsOK df target st1.apps := by rw [visit_apps hv]; exact ha
      cases g
      · exact ih st1 ha1
      · simp only [Except.map]
        rw [growLoop_shift hf hm hn hA a b d c _ (fun s h => h) [] st1 (by simp) ha1]
        cases hg : growLoop cfg c (tpOf df target []) (fpOf df target []) mask ((selectorPairs df target.1).map (·.1)) (Pattern.new []) (covBits df []) st1 with
        | error e => rfl
        | ok st2 =>
          simp only [Except.map]
          rw [ih st2 (by rw [growLoop_apps _ hg]; exact ha1)]
          rfl

/-- a later `fit` gives the list of a new object, and the counters go on -/
theorem fit_shift (hf : NominalFrame df target) (ht : OccursIn df [targetSel target]) (st : IDSDState)
    (hA : ∀ a ∈ st.apps.head?, df.nrows ≤ a.2.length) :
    ∃ A, (∀ a ∈ A.head?, df.nrows ≤ a.2.length) ∧ fit cfg st df target = (fit cfg .init df target).map (shift A st.visited st.nonUnique st.pruned) := by
  obtain ⟨mask, hm0, hm1, hm2⟩ := targetMask_ok hf
  have hf' := reduce_nominal hf (ties := cfg.ties) cfg.cats
  have hm' : MaskOK (reduceCategories cfg.ties cfg.cats df target.1) target mask := by
    obtain ⟨mask', h0, h1, h2⟩ := targetMask_ok hf'
    rw [reduce_target, hm0] at h0
    cases h0
    exact ⟨h1, h2⟩
  have hn : 0 < (reduceCategories cfg.ties cfg.cats df target.1).nrows := by
    rw [reduce_nrows]
    obtain ⟨i, hi, _⟩ := ht
    omega
  unfold fit
  rw [nominal_of hf, hm0]
  simp only [Bool.not_true, Bool.false_eq_true, if_false]
  rw [(matches_iff ⟨hm1, hm2⟩).2 ht]
  simp only [Bool.not_true, Bool.false_eq_true, if_false]
  generalize hdf : reduceCategories cfg.ties cfg.cats df target.1 = df' at *
  have hr : df.nrows = df'.nrows := by rw [← hdf, reduce_nrows]
  obtain ⟨hc1, hc2⟩ := count_true_mask hf' hm'.len hm'.iff
  rw [hr] at hA ⊢
  have hap := appsOK_fold hf' hA
  refine ⟨_, hap.first, ?_⟩
  rw [hc2, hc1]
  rw [← deepen_shift hf' hm' hn hap st.visited st.nonUnique st.pruned _ _ (appsOK_fold hf' (d := []) (by simp))]
  rfl

end
end Verif.IDSD
