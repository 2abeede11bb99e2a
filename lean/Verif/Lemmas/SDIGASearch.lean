import Verif.Lemmas.SDIGA
/-! Fitness and local search of SDIGA. -/
set_option linter.unusedSectionVars false
namespace Verif.SDIGA
open Classical Spec

variable {df : Frame} {target : Str × Str} {cfg : SDIGAConfig} {tcol : List Val} {st : SDIGAState} {l : List Pattern}

/-- the pattern of a chromosome -/
def pat (df : Frame) (target : Str × Str) (c : Chrom) : Pattern := Pattern.new (selsOf (otherCols df target.1) c)

/-- the counters and the unchecked rows of the object are those of the data after the patterns `l` -/
structure Ctx (df : Frame) (target : Str × Str) (tcol : List Val) (l : List Pattern) (st : SDIGAState) : Prop where
  TP : st.TP = tpOf df target []
  FP : st.FP = fpOf df target []
  unchecked : st.unchecked = freshRows df target.1 tcol l
  TPu : st.TPu = freshTp df target l []
  FPu : st.FPu = freshFp df target l []

/-- the metrics of a chromosome on the data -/
noncomputable def met (df : Frame) (target : Str × Str) (c : Chrom) : Metrics :=
  ⟨c, suppOf df target (pat df target c).sels, confOf df target (pat df target c).sels,
    tpOf df target (pat df target c).sels, fpOf df target (pat df target c).sels⟩

theorem tpFp_rows (hf : SDIGAFrame df target) (ht : df.col target.1 = .ok tcol) {c : Chrom} (hc : IsChrom df target.1 c) :
    tpFp c (encodeRows df target.1 tcol) target.2 = (tpOf df target (pat df target c).sels, fpOf df target (pat df target c).sels) := by
  rw [← freshRows_nil, tpFp_fresh hf hc ht, freshTp_nil, freshFp_nil]
  rfl

theorem tpFp_unchecked (hf : SDIGAFrame df target) (ht : df.col target.1 = .ok tcol) {c : Chrom} (hc : IsChrom df target.1 c)
    (l : List Pattern) : tpFp c (freshRows df target.1 tcol l) target.2 =
      (freshTp df target l (pat df target c).sels, freshFp df target l (pat df target c).sels) := tpFp_fresh hf hc ht l

theorem fitness_ok (hf : SDIGAFrame df target) (ht : df.col target.1 = .ok tcol) (hx : Ctx df target tcol l st)
    (hw : cfg.supW + cfg.confW ≠ 0) {c : Chrom} (hc : IsChrom df target.1 c) :
    fitness cfg st (encodeRows df target.1 tcol) target.2 c = .ok (fitOf cfg df target l (pat df target c).sels) := by
  have h1 : freshTp df target l (pat df target c).sels ≤ freshTp df target l [] := freshTp_mono (by simp) l
  unfold fitness
  rw [tpFp_rows hf ht hc, hx.unchecked, tpFp_unchecked hf ht hc, hx.TPu, hx.FPu]
  simp only
  rw [calculateSupport_ok h1, calculateConfidence_ok]
  simp only [bind, Except.bind, pyDiv]
  rw [if_neg hw]
  rfl

theorem fitness_zero (hf : SDIGAFrame df target) (ht : df.col target.1 = .ok tcol) (hx : Ctx df target tcol l st)
    (hw : cfg.supW + cfg.confW = 0) {c : Chrom} (hc : IsChrom df target.1 c) :
    fitness cfg st (encodeRows df target.1 tcol) target.2 c = .error .zeroDivisionError := by
  have h1 : freshTp df target l (pat df target c).sels ≤ freshTp df target l [] := freshTp_mono (by simp) l
  unfold fitness
  rw [tpFp_rows hf ht hc, hx.unchecked, tpFp_unchecked hf ht hc, hx.TPu, hx.FPu]
  simp only
  rw [calculateSupport_ok h1, calculateConfidence_ok]
  simp only [bind, Except.bind, pyDiv]
  rw [if_pos hw]

theorem measure_ok (hf : SDIGAFrame df target) (ht : df.col target.1 = .ok tcol) (hTP : st.TP = tpOf df target [])
    (hFP : st.FP = fpOf df target []) {c : Chrom} (hc : IsChrom df target.1 c) :
    measure st (encodeRows df target.1 tcol) target.2 c = .ok (met df target c) := by
  have h1 : tpOf df target (pat df target c).sels ≤ tpOf df target [] := tpOf_mono (by simp)
  have h2 := tp_add_fp_nil (df := df) (target := target)
  unfold measure
  rw [tpFp_rows hf ht hc, hTP, hFP]
  simp only
  rw [calculateSupport_ok h1, calculateConfidence_ok]
  simp only [bind, Except.bind, pure, Except.pure, met, suppOf, confOf]
  rw [← h2]
  push_cast
  rfl

/-- `d` is `c` with some genes set to 0 -/
def Drops (d c : Chrom) : Prop := List.Forall₂ (fun a b => a = 0 ∨ a = b) d c

theorem Drops.refl (c : Chrom) : Drops c c := by
  unfold Drops
  rw [List.forall₂_same]
  exact fun _ _ => Or.inr rfl

theorem Drops.trans {a b c : Chrom} (h1 : Drops a b) (h2 : Drops b c) : Drops a c := by
  unfold Drops at *
  induction h1 generalizing c with
  | nil => exact h2
  | @cons x y a b hxy _ ih =>
    cases h2 with
    | @cons _ z _ c hyz hbc =>
      refine List.Forall₂.cons ?_ (ih hbc)
      rcases hxy with rfl | rfl
      · exact Or.inl rfl
      · exact hyz

theorem drops_set (c : Chrom) (i : Nat) : Drops (c.set i 0) c := by
  unfold Drops
  rw [List.forall₂_iff_get]
  refine ⟨by simp, fun k h1 h2 => ?_⟩
  simp only [List.get_eq_getElem, List.getElem_set]
  split
  · exact Or.inl rfl
  · exact Or.inr rfl

theorem Drops.isChrom {tname : Str} {d c : Chrom} (h : Drops d c) (hc : IsChrom df tname c) : IsChrom df tname d := by
  have hc' : List.Forall₂ (fun (col : Str × List Val) g => g ≤ (col.2.dedup).length) (otherCols df tname) c := hc
  have : List.Forall₂ (fun (col : Str × List Val) g => g ≤ (col.2.dedup).length) (otherCols df tname) d := by
    rw [List.forall₂_iff_get] at *
    unfold Drops at h
    rw [List.forall₂_iff_get] at h
    refine ⟨by rw [hc'.1, h.1], fun k h1 h2 => ?_⟩
    rcases h.2 k h2 (by rw [← h.1]; exact h2) with h3 | h3
    · rw [h3]; exact Nat.zero_le _
    · rw [h3]; exact hc'.2 k h1 (by rw [← h.1]; exact h2)
  exact this

theorem Drops.sels {cols : List (Str × List Val)} {d c : Chrom} (h : Drops d c) : ∀ s ∈ selsOf cols d, s ∈ selsOf cols c := by
  intro s hs
  obtain ⟨k, col, g, v, h1, h2, h3, h4, h5⟩ := mem_selsOf.1 hs
  unfold Drops at h
  rw [List.forall₂_iff_get] at h
  obtain ⟨ha, hb⟩ := List.getElem?_eq_some_iff.1 h2
  have hc : k < c.length := by rw [← h.1]; exact ha
  have := h.2 k ha hc
  simp only [List.get_eq_getElem, hb, h3, false_or] at this
  exact mem_selsOf.2 ⟨k, col, g, v, h1, by rw [List.getElem?_eq_getElem hc, this], h3, h4, h5⟩

theorem Drops.pat (hf : SDIGAFrame df target) {d c : Chrom} (h : Drops d c) : ∀ s ∈ (pat df target d).sels, s ∈ (pat df target c).sels := by
  intro s hs
  exact (mem_pattern hf s).2 (h.sels s ((mem_pattern hf s).1 hs))

/-- dropping gene `i` keeps the confidence and does not lower the support -/
def Good (df : Frame) (target : Str × Str) (c : Chrom) (i : Nat) : Prop :=
  c[i]?.getD 0 ≠ 0 ∧ (met df target (c.set i 0)).support ≥ (met df target c).support ∧
    (met df target (c.set i 0)).confidence ≥ (met df target c).confidence ∧ (met df target (c.set i 0)).confidence > 0

theorem fold_spec (hf : SDIGAFrame df target) (ht : df.col target.1 = .ok tcol) (hTP : st.TP = tpOf df target [])
    (hFP : st.FP = fpOf df target []) {c : Chrom} (hc : IsChrom df target.1 c) (L : List Nat) (acc : Option Metrics × Rat) (h0 : 0 ≤ acc.2) :
    ∃ r, L.foldlM (dropStep st (encodeRows df target.1 tcol) target.2 (met df target c)) acc = .ok r ∧ acc.2 ≤ r.2 ∧
      (∀ i ∈ L, Good df target c i → (met df target (c.set i 0)).support - (met df target c).support ≤ r.2) ∧
      (r = acc ∨ ∃ i ∈ L, Good df target c i ∧ r.1 = some (met df target (c.set i 0)) ∧ 0 < r.2 ∧
        r.2 = (met df target (c.set i 0)).support - (met df target c).support) := by
  induction L generalizing acc with
  | nil => exact ⟨acc, rfl, le_refl _, by simp, Or.inl rfl⟩
  | cons i L ih =>
    have hm := measure_ok (st := st) hf ht hTP hFP (Drops.isChrom (drops_set c i) hc)
    rw [List.foldlM_cons]
    by_cases hz : c[i]?.getD 0 = 0
    · have e : dropStep st (encodeRows df target.1 tcol) target.2 (met df target c) acc i = .ok acc := by
        unfold dropStep; rw [if_pos (show (met df target c).chrom[i]?.getD 0 = 0 from hz)]
      rw [e]
      obtain ⟨r, h1, h2, h3, h4⟩ := ih acc h0
      refine ⟨r, h1, h2, ?_, ?_⟩
      · intro j hj hg
        rcases List.mem_cons.1 hj with rfl | hj
        · exact absurd hz hg.1
        · exact h3 j hj hg
      · rcases h4 with h4 | ⟨j, hj, h⟩
        · exact Or.inl h4
        · exact Or.inr ⟨j, List.mem_cons_of_mem _ hj, h⟩
    · have e : dropStep st (encodeRows df target.1 tcol) target.2 (met df target c) acc i = .ok
          (if (met df target (c.set i 0)).support ≥ (met df target c).support ∧
            (met df target (c.set i 0)).confidence ≥ (met df target c).confidence ∧ (met df target (c.set i 0)).confidence > 0 then
          (if (met df target (c.set i 0)).support - (met df target c).support > acc.2 then
            (some (met df target (c.set i 0)), (met df target (c.set i 0)).support - (met df target c).support) else acc) else acc) := by
        unfold dropStep
        rw [if_neg (show ¬ (met df target c).chrom[i]?.getD 0 = 0 from hz), show (met df target c).chrom = c from rfl, hm]
        simp only
        split_ifs <;> rfl
      rw [e]
      by_cases hg : (met df target (c.set i 0)).support ≥ (met df target c).support ∧
            (met df target (c.set i 0)).confidence ≥ (met df target c).confidence ∧ (met df target (c.set i 0)).confidence > 0
      · rw [if_pos hg]
        by_cases hd : (met df target (c.set i 0)).support - (met df target c).support > acc.2
        · rw [if_pos hd]
          obtain ⟨r, h1, h2, h3, h4⟩ := ih (some (met df target (c.set i 0)), (met df target (c.set i 0)).support - (met df target c).support)
            (le_of_lt (lt_of_le_of_lt h0 hd))
          refine ⟨r, h1, le_trans (le_of_lt hd) h2, ?_, ?_⟩
          · intro j hj hg'
            rcases List.mem_cons.1 hj with rfl | hj
            · exact h2
            · exact h3 j hj hg'
          · rcases h4 with rfl | ⟨j, hj, h⟩
            · exact Or.inr ⟨i, List.mem_cons_self, ⟨hz, hg⟩, rfl, lt_of_le_of_lt h0 hd, rfl⟩
            · exact Or.inr ⟨j, List.mem_cons_of_mem _ hj, h⟩
        · rw [if_neg hd]
          obtain ⟨r, h1, h2, h3, h4⟩ := ih acc h0
          refine ⟨r, h1, h2, ?_, ?_⟩
          · intro j hj hg'
            rcases List.mem_cons.1 hj with rfl | hj
            · exact le_trans (not_lt.1 hd) h2
            · exact h3 j hj hg'
          · rcases h4 with h4 | ⟨j, hj, h⟩
            · exact Or.inl h4
            · exact Or.inr ⟨j, List.mem_cons_of_mem _ hj, h⟩
      · rw [if_neg hg]
        obtain ⟨r, h1, h2, h3, h4⟩ := ih acc h0
        refine ⟨r, h1, h2, ?_, ?_⟩
        · intro j hj hg'
          rcases List.mem_cons.1 hj with rfl | hj
          · exact absurd hg'.2 hg
          · exact h3 j hj hg'
        · rcases h4 with h4 | ⟨j, hj, h⟩
          · exact Or.inl h4
          · exact Or.inr ⟨j, List.mem_cons_of_mem _ hj, h⟩

/-- number of genes in use -/
def used (c : Chrom) : Nat := c.countP (fun g => g != 0)

theorem used_set {c : Chrom} {i : Nat} (h : c[i]?.getD 0 ≠ 0) : used (c.set i 0) < used c := by
  unfold used
  induction c generalizing i with
  | nil => simp at h
  | cons a c ih =>
    cases i with
    | zero =>
      have : a ≠ 0 := by simpa using h
      simp [this]
    | succ i =>
      have := ih (i := i) (by simpa using h)
      simp only [List.set_cons_succ, List.countP_cons]
      omega

theorem searchLoop_spec (hf : SDIGAFrame df target) (ht : df.col target.1 = .ok tcol) (hTP : st.TP = tpOf df target [])
    (hFP : st.FP = fpOf df target []) : ∀ (fuel : Nat) (c : Chrom), IsChrom df target.1 c → used c < fuel →
    ∃ d, searchLoop st (encodeRows df target.1 tcol) target.2 fuel (met df target c) = .ok (met df target d) ∧ Drops d c ∧
      (d = c ∨ (met df target c).support < (met df target d).support) ∧ (met df target c).confidence ≤ (met df target d).confidence ∧
      ∀ i, Good df target d i → (met df target (d.set i 0)).support ≤ (met df target d).support := by
  intro fuel
  induction fuel with
  | zero => intro c _ h; omega
  | succ fuel ih =>
    intro c hc hu
    obtain ⟨r, h1, h2, h3, h4⟩ := fold_spec (st := st) hf ht hTP hFP hc (List.range c.length) (none, 0) (le_refl _)
    unfold searchLoop
    rw [show (met df target c).chrom.length = c.length from rfl, h1]
    rcases h4 with rfl | ⟨i, hi, hg, hr, hpos, hr2⟩
    · refine ⟨c, rfl, Drops.refl c, Or.inl rfl, le_refl _, fun i hg => ?_⟩
      have hi : i ∈ List.range c.length := by
        rw [List.mem_range]
        by_contra hn
        apply hg.1
        rw [List.getElem?_eq_none (by omega)]
        rfl
      have := h3 i hi hg
      simpa using this
    · obtain ⟨d, g1, g2, g3, g4, g5⟩ := ih (c.set i 0) (Drops.isChrom (drops_set c i) hc) (by have := used_set hg.1; omega)
      obtain ⟨r1, r2⟩ := r
      simp only at hr hr2 hpos
      subst hr
      refine ⟨d, g1, g2.trans (drops_set c i), Or.inr ?_, le_trans hg.2.2.1 g4, g5⟩
      have : (met df target c).support < (met df target (c.set i 0)).support := by rw [hr2] at hpos; linarith
      rcases g3 with rfl | g3
      · exact this
      · exact lt_trans this g3

/-- the whole of `_local_search` -/
theorem localSearch_spec (hf : SDIGAFrame df target) (ht : df.col target.1 = .ok tcol) (hx : Ctx df target tcol l st)
    (hw : cfg.supW + cfg.confW ≠ 0) {c : Chrom} (hc : IsChrom df target.1 c) :
    ∃ d, Drops d c ∧ (d = c ∨ (met df target c).support < (met df target d).support) ∧
      (met df target c).confidence ≤ (met df target d).confidence ∧
      (∀ i, Good df target d i → (met df target (d.set i 0)).support ≤ (met df target d).support) ∧
      localSearch cfg st (encodeRows df target.1 tcol) target.2 c =
        .ok (if (met df target d).confidence ≥ cfg.minConf then
          (d, (met df target d).confidence, fitOf cfg df target l (pat df target d).sels, (met df target d).tp, (met df target d).fp)
        else (c, (met df target d).confidence, fitOf cfg df target l (pat df target c).sels, (met df target c).tp, (met df target c).fp)) := by
  obtain ⟨d, h1, h2, h3, h4, h5⟩ := searchLoop_spec (st := st) hf ht hx.TP hx.FP (c.length + 1) c hc
    (by have : used c ≤ c.length := List.countP_le_length; omega)
  refine ⟨d, h2, h3, h4, h5, ?_⟩
  unfold localSearch
  rw [measure_ok hf ht hx.TP hx.FP hc]
  simp only [bind, Except.bind]
  rw [h1]
  simp only
  have e1 := fitness_ok hf ht hx hw (h2.isChrom hc)
  have e2 := fitness_ok hf ht hx hw hc
  by_cases hm : (met df target d).confidence ≥ cfg.minConf
  · rw [if_pos hm, if_pos hm, show (met df target d).chrom = d from rfl, e1]; rfl
  · rw [if_neg hm, if_neg hm, e2]; rfl

end Verif.SDIGA
