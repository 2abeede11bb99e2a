import Verif.Model.GLM
import Verif.Props.Credibility
import Verif.Props.QFinder
/-! C65: the credibility measures computed with a regression. -/
namespace Verif
open GLM PValueIndependence

/-- rows with the pattern and the target -/
def bothOnes (app target : Bits) : Nat := ((List.range target.length).filter (fun i => app.getD i false ∧ target.getD i false)).length
/-- rows with the pattern and without the target -/
def onlyFirst (app target : Bits) : Nat := ((List.range target.length).filter (fun i => app.getD i false ∧ target.getD i false = false)).length

namespace GLM

theorem count_cons (x y : Bool) (a t : Bits) :
    bothOnes (x :: a) (y :: t) = (if x && y then 1 else 0) + bothOnes a t ∧
    onlyFirst (x :: a) (y :: t) = (if x && !y then 1 else 0) + onlyFirst a t := by
  unfold bothOnes onlyFirst
  rw [List.length_cons, List.range_succ_eq_map, List.filter_cons, List.filter_map, List.filter_cons, List.filter_map]
  constructor
  · cases x <;> cases y <;> simp [Function.comp_def, Nat.add_comm]
  · cases x <;> cases y <;> simp [Function.comp_def, Nat.add_comm]

theorem invLogit_pos (t : ℝ) : 0 < invLogit t := by unfold invLogit; positivity
theorem one_sub_invLogit (t : ℝ) : 1 - invLogit t = Real.exp (-t) / (1 + Real.exp (-t)) := by
  unfold invLogit
  have : (1 : ℝ) + Real.exp (-t) ≠ 0 := by positivity
  field_simp
  ring
theorem invLogit_lt_one (t : ℝ) : 0 < 1 - invLogit t := by rw [one_sub_invLogit]; positivity

theorem logLik_eq (app target : Bits) (h : app.length = target.length) (b : ℝ) :
    logLik app target b = (bothOnes app target : ℝ) * Real.log (invLogit b) + (onlyFirst app target : ℝ) * Real.log (1 - invLogit b) +
      ((target.length : ℝ) - bothOnes app target - onlyFirst app target) * Real.log (1 / 2) := by
  induction app generalizing target with
  | nil =>
    cases target with
    | nil => simp [logLik, bothOnes, onlyFirst]
    | cons y t => simp at h
  | cons x a ih =>
    cases target with
    | nil => simp at h
    | cons y t =>
      have ih := ih t (by simpa using h)
      have e : logLik (x :: a) (y :: t) b = (if y then Real.log (rowProb b x) else Real.log (1 - rowProb b x)) + logLik a t b := by
        simp [logLik]
      have h0 : invLogit 0 = 1 / 2 := by unfold invLogit; norm_num
      rw [e, ih, (count_cons x y a t).1, (count_cons x y a t).2]
      have h3 : (1 : ℝ) - 1 / 2 = 1 / 2 := by norm_num
      cases x <;> cases y <;> simp only [rowProb, h0, h3, List.length_cons, Nat.cast_add, Nat.cast_one, Bool.not_true, Bool.not_false, Bool.and_self,
        Bool.and_true, Bool.and_false, Bool.false_eq_true, if_true, if_false, Nat.cast_zero] <;> ring

theorem info_eq (app target : Bits) (h : app.length = target.length) (b : ℝ) :
    info app target b = ((bothOnes app target : ℝ) + onlyFirst app target) * (invLogit b * (1 - invLogit b)) := by
  induction app generalizing target with
  | nil =>
    cases target with
    | nil => simp [info, bothOnes, onlyFirst]
    | cons y t => simp at h
  | cons x a ih =>
    cases target with
    | nil => simp at h
    | cons y t =>
      have ih := ih t (by simpa using h)
      have e : info (x :: a) (y :: t) b = (if x then rowProb b x * (1 - rowProb b x) else 0) + info a t b := by simp [info]
      rw [e, ih, (count_cons x y a t).1, (count_cons x y a t).2]
      cases x <;> cases y <;> simp [rowProb] <;> ring

theorem invLogit_log {p q : ℝ} (hp : 0 < p) (hq : 0 < q) : invLogit (Real.log (p / q)) = p / (p + q) := by
  unfold invLogit
  rw [← Real.log_inv, Real.exp_log (by positivity)]
  have := hp.ne'; have := hq.ne'
  have : p + q ≠ 0 := by positivity
  field_simp

theorem invLogit_inj {s t : ℝ} (h : invLogit s = invLogit t) : s = t := by
  unfold invLogit at h
  have h1 : (1 : ℝ) + Real.exp (-s) ≠ 0 := by positivity
  have h2 : (1 : ℝ) + Real.exp (-t) ≠ 0 := by positivity
  rw [div_eq_div_iff h1 h2] at h
  have : Real.exp (-s) = Real.exp (-t) := by linarith
  have := Real.exp_injective this
  linarith

theorem invLogit_strictMono {s t : ℝ} (h : s < t) : invLogit s < invLogit t := by
  unfold invLogit
  apply one_div_lt_one_div_of_lt (by positivity)
  have := Real.exp_lt_exp.2 (neg_lt_neg h)
  linarith

/-- Gibbs' inequality for two outcomes -/
theorem gibbs {p q m : ℝ} (hp : 0 < p) (hq : 0 < q) (hm : 0 < m) (hm' : 0 < 1 - m) (hne : m ≠ p / (p + q)) :
    p * Real.log m + q * Real.log (1 - m) < p * Real.log (p / (p + q)) + q * Real.log (1 - p / (p + q)) := by
  have hs : 0 < p + q := by positivity
  have e : 1 - p / (p + q) = q / (p + q) := by field_simp; ring
  rw [e]
  have k1 : Real.log m - Real.log (p / (p + q)) < m / (p / (p + q)) - 1 := by
    rw [← Real.log_div hm.ne' (by positivity)]
    apply Real.log_lt_sub_one_of_pos (by positivity)
    intro h
    rw [div_eq_one_iff_eq (by positivity)] at h
    exact hne h
  have k2 : Real.log (1 - m) - Real.log (q / (p + q)) ≤ (1 - m) / (q / (p + q)) - 1 := by
    rw [← Real.log_div hm'.ne' (by positivity)]
    exact Real.log_le_sub_one_of_pos (by positivity)
  have k3 : p * (m / (p / (p + q)) - 1) + q * ((1 - m) / (q / (p + q)) - 1) = 0 := by field_simp; ring
  nlinarith [mul_lt_mul_of_pos_left k1 hp, mul_le_mul_of_nonneg_left k2 hq.le]

end GLM

/-- C65 (estimate): for a pattern that covers rows of both classes the likelihood has exactly one maximiser, the logarithm of the odds of the target among the
covered rows. -/
theorem C65_estimate {app target : Bits} (h : app.length = target.length) (h1 : 0 < bothOnes app target) (h2 : 0 < onlyFirst app target) (b : ℝ) :
    (∀ b', logLik app target b' ≤ logLik app target b) ↔ b = Real.log ((bothOnes app target : ℝ) / onlyFirst app target) := by
  have p1 : (0 : ℝ) < bothOnes app target := by exact_mod_cast h1
  have p2 : (0 : ℝ) < onlyFirst app target := by exact_mod_cast h2
  set b0 := Real.log ((bothOnes app target : ℝ) / onlyFirst app target) with hb0
  have e0 := invLogit_log p1 p2
  have key : ∀ b', b' ≠ b0 → logLik app target b' < logLik app target b0 := by
    intro b' hb'
    rw [logLik_eq _ _ h, logLik_eq _ _ h, e0]
    have := gibbs p1 p2 (invLogit_pos b') (invLogit_lt_one b') (fun hh => hb' (invLogit_inj (hh.trans e0.symm)))
    linarith
  constructor
  · intro hb
    by_contra hne
    exact absurd (hb b0) (not_le.2 (key b hne))
  · rintro rfl b'
    by_cases hb' : b' = b0
    · rw [hb']
    · exact (key b' hb').le

/-- C65 (no estimate): if all the covered rows are of one class there is no maximum-likelihood estimate; if no row is covered, every number is one. -/
theorem C65_no_estimate {app target : Bits} (h : app.length = target.length) :
    ((0 < bothOnes app target ∧ onlyFirst app target = 0 ∨ bothOnes app target = 0 ∧ 0 < onlyFirst app target) →
      ¬ ∃ b, ∀ b', logLik app target b' ≤ logLik app target b) ∧
    (bothOnes app target = 0 → onlyFirst app target = 0 → ∀ b b', logLik app target b' ≤ logLik app target b) := by
  constructor
  · rintro (⟨h1, h2⟩ | ⟨h1, h2⟩) ⟨b, hb⟩
    · have p1 : (0 : ℝ) < bothOnes app target := by exact_mod_cast h1
      have := hb (b + 1)
      rw [logLik_eq _ _ h, logLik_eq _ _ h, h2] at this
      have hlt := Real.log_lt_log (invLogit_pos b) (invLogit_strictMono (lt_add_one b))
      have := mul_lt_mul_of_pos_left hlt p1
      push_cast at *
      linarith
    · have p2 : (0 : ℝ) < onlyFirst app target := by exact_mod_cast h2
      have := hb (b - 1)
      rw [logLik_eq _ _ h, logLik_eq _ _ h, h1] at this
      have hlt := Real.log_lt_log (invLogit_lt_one b) (by have := invLogit_strictMono (sub_one_lt b); linarith : 1 - invLogit b < 1 - invLogit (b - 1))
      have := mul_lt_mul_of_pos_left hlt p2
      push_cast at *
      linarith
  · intro h1 h2 b b'
    rw [logLik_eq _ _ h, logLik_eq _ _ h, h1, h2]
    simp

/-- the dictionary with the two series -/
def glmSeries (app target : Bits) : Dict Arg := [(kAppearance, .bits app), (kTarget, .bits target)]

theorem series_results (fit : Bits → Bits → Results) (app target : Bits) : results fit (glmSeries app target) = .ok (fit app target) := rfl

/-- C65 (odds): computed with a maximum-likelihood fit, `OddsRatioGLM` of a pattern that covers rows of both classes is the odds of the target among the
covered rows, whatever the other rows are. -/
theorem C65_odds {fit : Bits → Bits → Results} (hfit : FitsML fit) {app target : Bits} (h : app.length = target.length)
    (h1 : 0 < bothOnes app target) (h2 : 0 < onlyFirst app target) :
    GLM.oddsRatio fit (glmSeries app target) = .ok ((bothOnes app target : ℝ) / onlyFirst app target) := by
  unfold GLM.oddsRatio
  rw [series_results]
  have p1 : (0 : ℝ) < bothOnes app target := by exact_mod_cast h1
  have p2 : (0 : ℝ) < onlyFirst app target := by exact_mod_cast h2
  have := hfit app target h ⟨_, (C65_estimate h h1 h2 _).2 rfl⟩
  show Except.ok (Real.exp (fit app target).param) = _
  rw [(C65_estimate h h1 h2 _).1 this.best, Real.exp_log (by positivity)]

/-- C65 (comparison): on the same two series `OddsRatioStatistic` is the odds ratio of the contingency table. Where both are defined, the two measures agree
exactly when the rows that are not covered have as many positives as negatives. -/
theorem C65_not_the_odds_ratio {fit : Bits → Bits → Results} (hfit : FitsML fit) {app target : Bits} (h : app.length = target.length)
    (h1 : 0 < bothOnes app target) (h2 : 0 < onlyFirst app target)
    (h3 : 0 < bothOnes (Bits.not app) target) (h4 : 0 < onlyFirst (Bits.not app) target) :
    ∃ (v : ℝ) (q : Rat), GLM.oddsRatio fit (glmSeries app target) = .ok v ∧
      OddsRatioStatistic.compute [(kAppearance, .bits app), (kTarget, .bits target)] = .ok (.fin q) ∧
      (q : ℝ) = ((bothOnes app target : ℝ) / onlyFirst app target) / ((bothOnes (Bits.not app) target : ℝ) / onlyFirst (Bits.not app) target) ∧
      (v = (q : ℝ) ↔ bothOnes (Bits.not app) target = onlyFirst (Bits.not app) target) := by
  have p1 : (0 : ℝ) < bothOnes app target := by exact_mod_cast h1
  have p2 : (0 : ℝ) < onlyFirst app target := by exact_mod_cast h2
  have p3 : (0 : ℝ) < bothOnes (Bits.not app) target := by exact_mod_cast h3
  have p4 : (0 : ℝ) < onlyFirst (Bits.not app) target := by exact_mod_cast h4
  have hget : ∀ i ∈ List.range target.length, (Bits.not app).getD i false = !(app.getD i false) := by
    intro i hi
    have hi' : i < app.length := by rw [h]; exact List.mem_range.1 hi
    simp [Bits.not, List.getD, hi']
  have split : ∀ (P : Nat → Bool), ((List.range target.length).filter P).length =
      ((List.range target.length).filter (fun i => app.getD i false ∧ P i)).length +
      ((List.range target.length).filter (fun i => (Bits.not app).getD i false ∧ P i)).length := by
    intro P
    rw [← List.countP_eq_length_filter, ← List.countP_eq_length_filter, ← List.countP_eq_length_filter]
    have : ∀ l : List Nat, (∀ i ∈ l, (Bits.not app).getD i false = !(app.getD i false)) → l.countP P =
        l.countP (fun i => decide (app.getD i false = true ∧ P i = true)) + l.countP (fun i => decide ((Bits.not app).getD i false = true ∧ P i = true)) := by
      intro l
      induction l with
      | nil => intro _; rfl
      | cons x l ih =>
        intro hl
        have hx := hl x (by simp)
        rw [List.countP_cons, List.countP_cons, List.countP_cons, ih (fun i hi => hl i (by simp [hi])), hx]
        cases app.getD x false <;> cases P x <;> simp <;> omega
    exact this _ hget
  have sT : ((List.range target.length).filter (fun i => target.getD i false)).length = bothOnes app target + bothOnes (Bits.not app) target :=
    split (fun i => target.getD i false)
  have sF : ((List.range target.length).filter (fun i => target.getD i false = false)).length = onlyFirst app target + onlyFirst (Bits.not app) target := by
    have := split (fun i => decide (target.getD i false = false))
    simpa [onlyFirst] using this
  have hstat := C47_odds_from_rows app target h
  rw [oddsRatio_credCounts, sT, sF] at hstat
  refine ⟨_, ((bothOnes app target : Rat) / onlyFirst app target) / ((bothOnes (Bits.not app) target : Rat) / onlyFirst (Bits.not app) target),
    C65_odds hfit h h1 h2, ?_, by push_cast; ring, ?_⟩
  · rw [hstat]
    unfold OddsRatioStatistic.ofCounts
    have n1 : ¬ ((((List.range target.length).filter (fun i => app.getD i false ∧ target.getD i false)).length : Nat) : Rat) =
        ((bothOnes app target + bothOnes (Bits.not app) target : Nat) : Rat) := by
      change ¬ ((bothOnes app target : Nat) : Rat) = _
      rw [Nat.cast_inj]; omega
    have n2 : ¬ ((((List.range target.length).filter (fun i => app.getD i false ∧ target.getD i false = false)).length : Nat) : Rat) =
        ((onlyFirst app target + onlyFirst (Bits.not app) target : Nat) : Rat) := by
      change ¬ ((onlyFirst app target : Nat) : Rat) = _
      rw [Nat.cast_inj]; omega
    have n3 : ¬ ((((List.range target.length).filter (fun i => app.getD i false ∧ target.getD i false = false)).length : Nat) : Rat) = 0 := by
      change ¬ ((onlyFirst app target : Nat) : Rat) = _
      rw [Nat.cast_eq_zero]; omega
    rw [if_neg (fun hh => n1 hh.1), if_neg n1, if_neg n2, if_neg (fun hh => n3 hh.2), if_neg n3]
    congr 2
    show ((bothOnes app target : Nat) : Rat) / ((onlyFirst app target : Nat) : Rat) /
      ((((bothOnes app target + bothOnes (Bits.not app) target : Nat) : Rat) - ((bothOnes app target : Nat) : Rat)) /
        (((onlyFirst app target + onlyFirst (Bits.not app) target : Nat) : Rat) - ((onlyFirst app target : Nat) : Rat))) = _
    push_cast
    rw [add_sub_cancel_left, add_sub_cancel_left]
  · push_cast
    have hpos : (0 : ℝ) < (bothOnes app target : ℝ) / onlyFirst app target := by positivity
    rw [eq_div_iff (by positivity)]
    constructor
    · intro hh
      have : (bothOnes (Bits.not app) target : ℝ) / onlyFirst (Bits.not app) target = 1 := by
        have := mul_left_cancel₀ hpos.ne' (hh.trans (mul_one _).symm)
        exact this
      rw [div_eq_one_iff_eq p4.ne'] at this
      exact_mod_cast this
    · intro hh
      rw [hh, div_self p4.ne', mul_one]

/-- C65 (p-value): `PValueGLM` compares the odds of the covered rows with 1: its statistic is the logarithm of the odds over its standard error. It lies in (0, 1],
it is 1 exactly for a pattern that covers as many positives as negatives, whatever the share of the positives in the data. -/
theorem C65_p_value {fit : Bits → Bits → Results} (hfit : FitsML fit) {app target : Bits} (h : app.length = target.length)
    (h1 : 0 < bothOnes app target) (h2 : 0 < onlyFirst app target) :
    ∃ p, GLM.pValue fit (glmSeries app target) = .ok p ∧
      p = 2 * (1 - normCdf |Real.log ((bothOnes app target : ℝ) / onlyFirst app target) /
        Real.sqrt (1 / (bothOnes app target : ℝ) + 1 / (onlyFirst app target : ℝ))|) ∧
      0 < p ∧ p ≤ 1 ∧ (p = 1 ↔ bothOnes app target = onlyFirst app target) := by
  have p1 : (0 : ℝ) < bothOnes app target := by exact_mod_cast h1
  have p2 : (0 : ℝ) < onlyFirst app target := by exact_mod_cast h2
  have hg := hfit app target h ⟨_, (C65_estimate h h1 h2 _).2 rfl⟩
  have hb := (C65_estimate h h1 h2 _).1 hg.best
  have hinfo : 1 / info app target (fit app target).param = 1 / (bothOnes app target : ℝ) + 1 / (onlyFirst app target : ℝ) := by
    rw [info_eq _ _ h, hb, invLogit_log p1 p2]
    have n1 := p1.ne'
    have n2 := p2.ne'
    have n3 : (bothOnes app target : ℝ) + onlyFirst app target ≠ 0 := by positivity
    have : (1 : ℝ) - bothOnes app target / (bothOnes app target + onlyFirst app target) = onlyFirst app target / (bothOnes app target + onlyFirst app target) := by
      field_simp; ring
    rw [this]
    field_simp
    ring
  have hp := hg.wald
  rw [hinfo, hb] at hp
  refine ⟨_, by unfold GLM.pValue; rw [series_results], hp, ?_, ?_, ?_⟩
  · rw [hp]
    have : normCdf |Real.log ((bothOnes app target : ℝ) / onlyFirst app target) /
        Real.sqrt (1 / (bothOnes app target : ℝ) + 1 / (onlyFirst app target : ℝ))| < 1 := by
      refine lt_of_lt_of_le (normCdf_strictMono (lt_add_one _)) ?_
      exact ProbabilityTheory.cdf_le_one _ _
    linarith
  · rw [hp]; exact (two_tailed_range _).2
  · rw [hp]
    set z := Real.log ((bothOnes app target : ℝ) / onlyFirst app target) /
      Real.sqrt (1 / (bothOnes app target : ℝ) + 1 / (onlyFirst app target : ℝ)) with hz
    have e1 : z = 0 ↔ bothOnes app target = onlyFirst app target := by
      rw [hz, div_eq_zero_iff]
      have : Real.sqrt (1 / (bothOnes app target : ℝ) + 1 / (onlyFirst app target : ℝ)) ≠ 0 := by positivity
      simp only [this, or_false]
      constructor
      · intro hh
        rw [Real.log_eq_zero] at hh
        have : (0 : ℝ) < (bothOnes app target : ℝ) / onlyFirst app target := by positivity
        rcases hh with hh | hh | hh
        · linarith
        · rw [div_eq_one_iff_eq p2.ne'] at hh; exact_mod_cast hh
        · linarith
      · intro hh
        rw [hh, div_self p2.ne', Real.log_one]
    rw [← e1]
    constructor
    · intro hh
      by_contra hne
      have := normCdf_strictMono (abs_pos.2 hne)
      rw [normCdf_zero] at this
      linarith
    · intro hh
      rw [hh, abs_zero, normCdf_zero]
      norm_num

/-- C65 (parameters): a fitted model in the dictionary is used as it is; without it both series are needed. -/
theorem C65_parameters (fit : Bits → Bits → Results) (d : Dict Arg) :
    (∀ r, d.lookup kGlm = some (.glm r) → GLM.oddsRatio fit d = .ok (Real.exp r.param) ∧ GLM.pValue fit d = .ok r.pvalue) ∧
    (d.lookup kGlm = none → (d.lookup kAppearance = none ∨ d.lookup kTarget = none) →
      GLM.oddsRatio fit d = .error .parameterNotFound ∧ GLM.pValue fit d = .error .parameterNotFound) := by
  constructor
  · intro r hr
    have : results fit d = .ok r := by unfold results; simp [Dict.has, hr]
    simp [GLM.oddsRatio, GLM.pValue, this]
  · intro hg ha
    have : results fit d = .error .parameterNotFound := by
      unfold results
      rcases ha with ha | ha <;> simp [Dict.has, hg, ha]
    simp [GLM.oddsRatio, GLM.pValue, this]

/-- such fits exist -/
theorem exists_fitsML : ∃ fit, FitsML fit := by
  classical
  refine ⟨fun app target => if h : ∃ b, ∀ b', logLik app target b' ≤ logLik app target b then
    ⟨h.choose, 2 * (1 - normCdf |h.choose / Real.sqrt (1 / info app target h.choose)|)⟩ else ⟨0, 1⟩, ?_⟩
  intro app target _ hex
  beta_reduce
  rw [dif_pos hex]
  exact ⟨hex.choose_spec, rfl⟩

/-- four rows covered, three of them positive; eight rows not covered, six of them positive: the pattern says nothing about the target (odds ratio 1), yet
`OddsRatioGLM` is 3 -/
example : ∃ fit, FitsML fit ∧ GLM.oddsRatio fit (glmSeries [true, true, true, true, false, false, false, false, false, false, false, false]
      [true, true, true, false, true, true, true, true, true, true, false, false]) = .ok 3 ∧
    OddsRatioStatistic.compute [(kAppearance, .bits [true, true, true, true, false, false, false, false, false, false, false, false]),
      (kTarget, .bits [true, true, true, false, true, true, true, true, true, true, false, false])] = .ok (.fin 1) := by
  obtain ⟨fit, hfit⟩ := exists_fitsML
  refine ⟨fit, hfit, ?_, by decide +kernel⟩
  rw [C65_odds (app := [true, true, true, true, false, false, false, false, false, false, false, false])
    (target := [true, true, true, false, true, true, true, true, true, true, false, false]) hfit rfl (by decide) (by decide)]
  have e1 : bothOnes [true, true, true, true, false, false, false, false, false, false, false, false]
    [true, true, true, false, true, true, true, true, true, true, false, false] = 3 := by decide
  have e2 : onlyFirst [true, true, true, true, false, false, false, false, false, false, false, false]
    [true, true, true, false, true, true, true, true, true, true, false, false] = 1 := by decide
  rw [e1, e2]
  norm_num

section
open Classical Spec QFinder

theorem counts_rowBits (df : Frame) (target : Str × Str) (X : List Selector) :
    bothOnes (rowBits df X) (rowBits df [targetSel target]) = tpOf df target X ∧
    onlyFirst (rowBits df X) (rowBits df [targetSel target]) = fpOf df target X := by
  have h1 : (rowBits df [targetSel target]).length = df.nrows := by simp [rowBits]
  have h2 : ∀ Y, ∀ i ∈ List.range df.nrows, (rowBits df Y).getD i false = decide (Covers df Y i) := by
    intro Y i hi
    rw [List.mem_range] at hi
    simp [rowBits, hi]
  have h3 : ∀ i, Covers df [targetSel target] i ↔ MatchesAt df (targetSel target) i := by intro i; simp [Covers]
  unfold bothOnes onlyFirst tpOf fpOf
  rw [h1]
  constructor
  · congr 1
    apply List.filter_congr
    intro i hi
    rw [h2 _ i hi, h2 _ i hi, Bool.eq_iff_iff]
    simp [h3]
  · congr 1
    apply List.filter_congr
    intro i hi
    rw [h2 _ i hi, h2 _ i hi, Bool.eq_iff_iff]
    simp [h3]

/-- C65: in the result of `QFinder.fit`, when the odds ratios of the configuration are those of a maximum-likelihood fit, the `odds_ratio` of each reported pattern that covers rows of both
classes is its true positives divided by its false positives. -/
theorem C65_qfinder {fitG : Bits → Bits → Results} (hfit : FitsML fitG) {cfg : QFConfig} {df : Frame} {target : Str × Str} (hf : NominalFrame df target)
    (hs : SafeTexts df target) (hnum : 1 ≤ cfg.num) (hp : ∀ X, Describes target X → OccursIn df X → glmPOf cfg df target X ≠ .nan)
    (hor : ∀ app tgt, app.length = tgt.length → 0 < bothOnes app tgt → 0 < onlyFirst app tgt → ∃ q, cfg.glmOr app tgt = .fin q ∧ GLM.oddsRatio fitG (glmSeries app tgt) = .ok (q : ℝ))
    {st st' : QFState} (h : fit cfg st df target = .ok st') {e : QFEntry} (he : e ∈ st'.top)
    (h1 : 0 < tpOf df target e.pat.sels) (h2 : 0 < fpOf df target e.pat.sels) :
    e.cred.odds = .fin ((tpOf df target e.pat.sels : Rat) / (fpOf df target e.pat.sels : Rat)) := by
  obtain ⟨st1, g1, _, _, g4, _⟩ := C38_selection hf hs hnum hp st
  rw [h] at g1
  cases g1
  have e1 : e.cred.odds = glmOddsOf cfg df target e.pat.sels := by
    have := (g4 e he).2
    generalize e.pat = p at this
    rw [this]
    rfl
  obtain ⟨k1, k2⟩ := counts_rowBits df target e.pat.sels
  obtain ⟨q, hq1, hq2⟩ := hor (rowBits df e.pat.sels) (rowBits df [targetSel target]) (by simp [rowBits]) (by rw [k1]; exact h1) (by rw [k2]; exact h2)
  rw [C65_odds hfit (by simp [rowBits]) (by rw [k1]; exact h1) (by rw [k2]; exact h2), k1, k2] at hq2
  rw [e1]
  unfold glmOddsOf
  rw [hq1]
  congr 1
  injection hq2 with hq2
  have : ((q : Rat) : ℝ) = (((tpOf df target e.pat.sels : Rat) / (fpOf df target e.pat.sels : Rat) : Rat) : ℝ) := by
    rw [← hq2]; push_cast; rfl
  exact_mod_cast this

end

/-- the hypotheses can be met: a configuration whose odds ratios are those of a fit -/
example : ∃ (fitG : Bits → Bits → Results) (cfg : QFConfig), FitsML fitG ∧ Spec.NominalFrame QFinderWitness.dfB QFinderWitness.tA ∧
    Spec.SafeTexts QFinderWitness.dfB QFinderWitness.tA ∧ 1 ≤ cfg.num ∧
    (∀ X, Spec.Describes QFinderWitness.tA X → Spec.OccursIn QFinderWitness.dfB X → Spec.glmPOf cfg QFinderWitness.dfB QFinderWitness.tA X ≠ .nan) ∧
    (∀ app tgt, app.length = tgt.length → 0 < bothOnes app tgt → 0 < onlyFirst app tgt → ∃ q, cfg.glmOr app tgt = .fin q ∧
      GLM.oddsRatio fitG (glmSeries app tgt) = .ok (q : ℝ)) := by
  obtain ⟨fitG, hfit⟩ := exists_fitsML
  refine ⟨fitG, ⟨10, -1, -1, 0, 0, 1, 0, 5, 1/2, fun a t => .fin ((bothOnes a t : Rat) / (onlyFirst a t : Rat)), fun _ _ => .fin (1/2), .first⟩, hfit,
    QFinderWitness.nominalB, QFinderWitness.safeB, by decide, ?_, ?_⟩
  · intro X _ _ h; cases h
  · intro app tgt hl h1 h2
    refine ⟨_, rfl, ?_⟩
    rw [C65_odds hfit hl h1 h2]
    push_cast
    rfl

end Verif
