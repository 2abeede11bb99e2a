import Verif.Props.FloatOrder
import Verif.Props.Agree
/-! Property C77: the algorithms when the measures are computed in floating point. The theorems about runs (C23 to C31, C53, C69, C70) hold for any function as
quality measure, so also for `Measure.computeFl`; here are the conditions that some of them require, and what follows from them. -/
namespace Verif
open Spec Float64

theorem lookupOnly_fl (m : Measure) : LookupOnly m.computeFl := fun d e h => C75_only_needed m d e (fun k _ => h k)

theorem paramsFor_fl (m : Measure) (hm : ∀ k ∈ needs m, k = kTp ∨ k = kFp ∨ k = kTP ∨ k = kFP) (tp fp TP FP : Nat) (x : Params) :
    m.computeFl (paramsFor tp fp TP FP (deleteSubgroupParameters x)) = m.computeFl (counts tp fp TP FP) := by
  apply C75_only_needed
  intro k hk
  unfold paramsFor
  rw [lookup_update]
  · rfl
  · simp only [deleteSubgroupParameters, lookup_del]
    rcases hm k hk with rfl | rfl | rfl | rfl <;> simp

/-- the pairs of measure and estimate of the library -/
def Spec.flPairs : List (Measure × Measure) :=
  [(Measure.wracc, Measure.wraccOE1), (Measure.piatetskyShapiro, Measure.psOE1), (Measure.piatetskyShapiro, Measure.psOE2)]

theorem needs_counts {m oe : Measure} (h : (m, oe) ∈ flPairs) : (∀ k ∈ needs m, k = kTp ∨ k = kFp ∨ k = kTP ∨ k = kFP) ∧
    (∀ k ∈ needs oe, k = kTp ∨ k = kFp ∨ k = kTP ∨ k = kFP) := by
  simp only [flPairs, List.mem_cons, Prod.mk.injEq, List.not_mem_nil, or_false] at h
  rcases h with ⟨rfl, rfl⟩ | ⟨rfl, rfl⟩ | ⟨rfl, rfl⟩ <;> constructor <;> intro k hk <;> simp [needs] at hk <;> tauto

/-- `C74_bound` for a pair -/
theorem pair_bound {m oe : Measure} (h : (m, oe) ∈ flPairs) (tp fp TP FP tp' fp' : Nat) (h1 : tp ≤ TP) (h2 : fp ≤ FP) (h3 : tp' ≤ tp) (h4 : fp' ≤ fp)
    (h5 : 0 < tp' + fp') (hN : TP + FP ≤ 2 ^ 48) :
    ∃ q o, m.computeFl (counts tp' fp' TP FP) = .ok q ∧ oe.computeFl (counts tp fp TP FP) = .ok o ∧ q ≤ o := by
  obtain ⟨⟨q, o1, o2, m1, m2, m3, m4, m5⟩, q', o', w1, w2, w3⟩ := C74_bound tp fp TP FP tp' fp' h1 h2 h3 h4 h5 hN
  simp only [flPairs, List.mem_cons, Prod.mk.injEq, List.not_mem_nil, or_false] at h
  rcases h with ⟨rfl, rfl⟩ | ⟨rfl, rfl⟩ | ⟨rfl, rfl⟩
  · exact ⟨_, _, w1, w2, w3⟩
  · exact ⟨_, _, m1, m2, m4.trans m5⟩
  · exact ⟨_, _, m1, m3, m4⟩

section
open Classical
variable {df : Frame} {target : Str × Str}

theorem counts_total : tpOf df target [] + fpOf df target [] ≤ df.nrows := by
  unfold tpOf fpOf
  have h1 : (List.range df.nrows).filter (fun i => decide (Covers df [] i ∧ ¬ MatchesAt df (targetSel target) i)) =
      (List.range df.nrows).filter (fun i => !decide (Covers df [] i ∧ MatchesAt df (targetSel target) i)) := by
    apply List.filter_congr
    intro i _
    have : Covers df [] i := by intro s hs; cases hs
    simp [this]
  rw [h1]
  have := List.length_eq_length_filter_add (l := List.range df.nrows) (fun i => decide (Covers df [] i ∧ MatchesAt df (targetSel target) i))
  rw [List.length_range] at this
  omega

theorem counts_le (X : List Selector) : tpOf df target X ≤ tpOf df target [] ∧ fpOf df target X ≤ fpOf df target [] :=
  ⟨tpOf_mono (by simp), fpOf_mono (by simp)⟩

theorem counts_pos {X : List Selector} (h : OccursIn df X) : 0 < tpOf df target X + fpOf df target X := (occurs_iff (target := target)).2 h

/-- the quality of `X` in the data, in floating point, and its exact value -/
noncomputable def Spec.flQuality (m : Measure) (df : Frame) (target : Str × Str) (X : List Selector) : Except PyErr Rat :=
  m.computeFl (counts (tpOf df target X) (fpOf df target X) (tpOf df target []) (fpOf df target []))
noncomputable def Spec.exactQuality (m : Measure) (df : Frame) (target : Str × Str) (X : List Selector) : Except PyErr Rat :=
  m.compute (counts (tpOf df target X) (fpOf df target X) (tpOf df target []) (fpOf df target []))

variable {m oe : Measure}

/-- **C77.** For up to `2^48` rows, the estimates of the library in floating point suit their measures in floating point: they bound the quality of
refinements, rounding included, and are defined on what occurs. So the theorems about complete searches (C30, C70) apply to the program. -/
theorem C77_suits (h : (m, oe) ∈ flPairs) (hrows : df.nrows ≤ 2 ^ 48) (minQ minE : Rat) (x xo : Params) (s1 s2 : SortCriterion) :
    LookupOnly oe.computeFl ∧ Suits (VLSDConfig.new m.computeFl minQ oe.computeFl minE x xo s1 s2) df target := by
  obtain ⟨n1, n2⟩ := needs_counts h
  have hN := (counts_total (df := df) (target := target)).trans hrows
  refine ⟨lookupOnly_fl _, ⟨?_, ?_⟩⟩
  · intro X Y oX q _ hXY hY e1 e2
    obtain ⟨q', o, w1, w2, w3⟩ := pair_bound h (tpOf df target X) (fpOf df target X) (tpOf df target []) (fpOf df target [])
      (tpOf df target Y) (fpOf df target Y) (counts_le X).1 (counts_le X).2 (tpOf_mono hXY) (fpOf_mono hXY) (counts_pos hY) hN
    unfold estimateOf at e1
    unfold vlQualityOf at e2
    simp only [VLSDConfig.new] at e1 e2
    rw [paramsFor_fl _ n1, w1] at e2
    rw [paramsFor_fl _ n2, w2] at e1
    cases e1; cases e2; exact w3
  · intro X _ hX
    obtain ⟨q', o, w1, w2, w3⟩ := pair_bound h (tpOf df target X) (fpOf df target X) (tpOf df target []) (fpOf df target [])
      (tpOf df target X) (fpOf df target X) (counts_le X).1 (counts_le X).2 le_rfl le_rfl (counts_pos hX) hN
    unfold estimateOf
    simp only [VLSDConfig.new]
    rw [paramsFor_fl _ n2]; exact ⟨_, w2⟩

/-- **C77.** VLSD in floating point: for up to `2^48` rows and a threshold of the estimate not above that of the quality, `fit` ends without error and writes exactly
the descriptions that occur and whose quality, in floating point, reaches the minimum, each with that quality and its counts. The search misses
none because of rounding. -/
theorem C77_vlsd (h : (m, oe) ∈ flPairs) (hrows : df.nrows ≤ 2 ^ 48) (minQ minE : Rat) (hle : minE ≤ minQ) (x xo : Params) (s1 s2 : SortCriterion)
    (hf : NominalFrame df target) (vl : VLState Bits) :
    ∃ vl', (VLSDConfig.new m.computeFl minQ oe.computeFl minE x xo s1 s2).fit .bitsets vl df target = .ok vl' ∧
      ∀ s : Seen, s ∈ vl'.file.map VLine.seen ↔ ∃ X q, Describes target X ∧ X.Pairwise (fun a b => a.lt b = true) ∧ OccursIn df X ∧
        flQuality m df target X = .ok q ∧ minQ ≤ q ∧
        s = (⟨⟨X⟩, targetSel target⟩, q, tpOf df target X, fpOf df target X, tpOf df target [], fpOf df target []) := by
  obtain ⟨n1, n2⟩ := needs_counts h
  have hN := (counts_total (df := df) (target := target)).trans hrows
  obtain ⟨hl, hs⟩ := C77_suits (target := target) h hrows minQ minE x xo s1 s2
  have hq : ∀ X, vlQualityOf (VLSDConfig.new m.computeFl minQ oe.computeFl minE x xo s1 s2) df target X = flQuality m df target X := by
    intro X
    unfold vlQualityOf flQuality
    exact paramsFor_fl _ n1 _ _ _ _ _
  have hd : ∀ X, OccursIn df X → (∃ q, estimateOf (VLSDConfig.new m.computeFl minQ oe.computeFl minE x xo s1 s2) df target X = .ok q) ∧
      ∃ q, vlQualityOf (VLSDConfig.new m.computeFl minQ oe.computeFl minE x xo s1 s2) df target X = .ok q := by
    intro X hX
    obtain ⟨q', o, w1, w2, w3⟩ := pair_bound h (tpOf df target X) (fpOf df target X) (tpOf df target []) (fpOf df target [])
      (tpOf df target X) (fpOf df target X) (counts_le X).1 (counts_le X).2 le_rfl le_rfl (counts_pos hX) hN
    rw [hq]
    refine ⟨?_, _, w1⟩
    unfold estimateOf
    simp only [VLSDConfig.new]
    rw [paramsFor_fl _ n2]; exact ⟨_, w2⟩
  obtain ⟨vl', hv⟩ := C29_total_bitsets m.computeFl minQ oe.computeFl minE x xo s1 s2 hl df target hf vl (fun X hX => (hd X hX).1) (fun X hX => (hd X hX).2)
  obtain ⟨calls, hr⟩ := C29_bitsets m.computeFl minQ oe.computeFl minE x xo s1 s2 hl df target hf vl vl' hv
  refine ⟨vl', hv, fun s => ?_⟩
  rw [vlsd_seen hr hs.bounds hs.defined hle]
  simp only [hq]
  rfl

/-- **C77.** What this means for the exact qualities, for WRAcc: every description that occurs and whose exact quality reaches the minimum by `5 * 2^-53` is
written, and every description written has an exact quality within `5 * 2^-53` of the minimum, or above it. -/
theorem C77_vlsd_exact (hrows : df.nrows ≤ 2 ^ 48) (minQ minE : Rat) (hle : minE ≤ minQ) (x xo : Params) (s1 s2 : SortCriterion)
    (hf : NominalFrame df target) (vl vl' : VLState Bits)
    (hv : (VLSDConfig.new Measure.wracc.computeFl minQ Measure.wraccOE1.computeFl minE x xo s1 s2).fit .bitsets vl df target = .ok vl')
    (X : List Selector) (hX : Describes target X) (hs : X.Pairwise (fun a b => a.lt b = true)) (hX' : OccursIn df X) :
    ∃ q, exactQuality .wracc df target X = .ok q ∧
      (minQ + 5 * (2 : Rat) ^ (-53 : Int) ≤ q → ∃ l ∈ vl'.file, l.subgroup = ⟨⟨X⟩, targetSel target⟩) ∧
      ((∃ l ∈ vl'.file, l.subgroup = ⟨⟨X⟩, targetSel target⟩) → minQ - 5 * (2 : Rat) ^ (-53 : Int) ≤ q) := by
  have hN := (counts_total (df := df) (target := target)).trans hrows
  obtain ⟨w, hw, hiff⟩ := C77_vlsd (m := .wracc) (oe := .wraccOE1) (df := df) (target := target) (by simp [flPairs]) hrows minQ minE hle x xo s1 s2 hf vl
  rw [hv] at hw
  cases hw
  obtain ⟨y, o, hy, -, -⟩ := pair_bound (m := .wracc) (oe := .wraccOE1) (by simp [flPairs]) (tpOf df target X) (fpOf df target X) (tpOf df target []) (fpOf df target [])
      (tpOf df target X) (fpOf df target X) (counts_le X).1 (counts_le X).2 le_rfl le_rfl (counts_pos hX') hN
  obtain ⟨q, hq⟩ := defined_of_fl hy
  obtain ⟨y', hy', herr⟩ := C76_error .wracc _ _ _ _ (counts_le X).1 (counts_le X).2 (by omega) q hq
  rw [hy] at hy'
  cases hy'
  simp only [scale, mul_one] at herr
  rw [abs_le] at herr
  refine ⟨q, hq, fun hge => ?_, ?_⟩
  · have := (hiff _).2 ⟨X, y, hX, hs, hX', hy, by linarith, rfl⟩
    obtain ⟨l, hl, hls⟩ := List.mem_map.1 this
    exact ⟨l, hl, congrArg (·.1) hls⟩
  · rintro ⟨l, hl, hls⟩
    obtain ⟨Z, qZ, _, _, _, z1, z2, z3⟩ := (hiff _).1 (List.mem_map_of_mem (f := VLine.seen) hl)
    have : (⟨⟨X⟩, targetSel target⟩ : Subgroup) = ⟨⟨Z⟩, targetSel target⟩ := by
      rw [← hls]; exact congrArg (·.1) z3
    injection this with k1
    injection k1 with k1
    subst k1
    have : flQuality .wracc df target X = .ok y := hy
    rw [z1] at this
    cases this
    linarith

/-- monotone in floating point: more positives and fewer negatives do not decrease the value -/
theorem fl_monotone (hm : m = .wracc ∨ m = .piatetskyShapiro) (tp fp tp' fp' TP FP : Nat) (h1' : tp' ≤ TP) (h2 : fp ≤ FP)
    (ht : tp ≤ tp') (hf : fp' ≤ fp) (hN : TP + FP ≤ 2 ^ 24) (y y' : Rat)
    (hy : m.computeFl (counts tp fp TP FP) = .ok y) (hy' : m.computeFl (counts tp' fp' TP FP) = .ok y') : y ≤ y' := by
  obtain ⟨x, hx⟩ := defined_of_fl hy
  obtain ⟨x', hx'⟩ := defined_of_fl hy'
  rcases lt_or_ge x x' with h | h
  · exact (C76_order m hm tp fp tp' fp' TP FP (by omega) h2 h1' (by omega) hN x x' y y' hx hx' hy hy' h).le
  · -- the exact values are equal
    have hp := pairs tp fp TP FP m x y hx hy
    have hp' := pairs tp' fp' TP FP m x' y' hx' hy'
    have ht' : (tp : Rat) ≤ tp' := by exact_mod_cast ht
    have hf' : (fp' : Rat) ≤ fp := by exact_mod_cast hf
    have T0 : (0 : Rat) ≤ TP := by positivity
    have F0 : (0 : Rat) ≤ FP := by positivity
    have hab : 0 < tp + fp ∧ 0 < TP + FP ∧ 0 < tp' + fp' := by
      rcases hm with rfl | rfl <;> exact ⟨hp.1, hp.2.1, hp'.1⟩
    obtain ⟨a, b, a'⟩ := hab
    have b' : (0 : Rat) < TP + FP := by exact_mod_cast b
    have key : (tp' : Rat) * FP - fp' * TP ≤ tp * FP - fp * TP := by
      rcases hm with rfl | rfl
      · obtain ⟨-, -, r, -⟩ := hp
        obtain ⟨-, -, r', -⟩ := hp'
        rw [wracc_counts a b] at r
        rw [wracc_counts a' b] at r'
        rw [r, r'] at h
        exact (div_le_div_iff_of_pos_right (mul_pos b' b')).1 h
      · obtain ⟨-, -, r, -⟩ := hp
        obtain ⟨-, -, r', -⟩ := hp'
        rw [ps_counts a b] at r
        rw [ps_counts a' b] at r'
        rw [r, r'] at h
        exact (div_le_div_iff_of_pos_right b').1 h
    have k1 := mul_nonneg (sub_nonneg.2 ht') F0
    have k2 := mul_nonneg (sub_nonneg.2 hf') T0
    have z1 : ((tp' : Rat) - tp) * FP = 0 := by nlinarith
    have z2 : ((fp : Rat) - fp') * TP = 0 := by nlinarith
    rcases Nat.eq_zero_or_pos FP with hFP | hFP
    · -- no negative rows: both values are zero
      subst hFP
      have e1 : fp = 0 := by omega
      have e2 : fp' = 0 := by omega
      subst e1; subst e2
      have s1 := (C76_sign m hm tp 0 TP 0 (by omega) (by omega) (by omega) x y hx hy).2.2
      have s2 := (C76_sign m hm tp' 0 TP 0 (by omega) (by omega) (by omega) x' y' hx' hy').2.2
      have zx : x = 0 := by
        rcases hm with rfl | rfl
        · rw [hp.2.2.1, wracc_counts a b]; simp
        · rw [hp.2.2.1, ps_counts a b]; simp
      have zx' : x' = 0 := by
        rcases hm with rfl | rfl
        · rw [hp'.2.2.1, wracc_counts a' b]; simp
        · rw [hp'.2.2.1, ps_counts a' b]; simp
      rw [s1.2 zx, s2.2 zx']
    · rcases Nat.eq_zero_or_pos TP with hTP | hTP
      · subst hTP
        have e1 : tp = 0 := by omega
        have e2 : tp' = 0 := by omega
        subst e1; subst e2
        have s1 := (C76_sign m hm 0 fp 0 FP (by omega) (by omega) (by omega) x y hx hy).2.2
        have s2 := (C76_sign m hm 0 fp' 0 FP (by omega) (by omega) (by omega) x' y' hx' hy').2.2
        have zx : x = 0 := by
          rcases hm with rfl | rfl
          · rw [hp.2.2.1, wracc_counts a b]; simp
          · rw [hp.2.2.1, ps_counts a b]; simp
        have zx' : x' = 0 := by
          rcases hm with rfl | rfl
          · rw [hp'.2.2.1, wracc_counts a' b]; simp
          · rw [hp'.2.2.1, ps_counts a' b]; simp
        rw [s1.2 zx, s2.2 zx']
      · have f1 : (FP : Rat) ≠ 0 := by exact_mod_cast hFP.ne'
        have f2 : (TP : Rat) ≠ 0 := by exact_mod_cast hTP.ne'
        have e1 : tp' = tp := by
          have := (mul_eq_zero.1 z1).resolve_right f1
          have : (tp' : Rat) = tp := by linarith
          exact_mod_cast this
        have e2 : fp' = fp := by
          have := (mul_eq_zero.1 z2).resolve_right f2
          have : (fp' : Rat) = fp := by linarith
          exact_mod_cast this
        rw [e1, e2, hy] at hy'
        cases hy'
        exact le_rfl

/-- **C77.** BSD, CBSD and CPBSD in floating point: on data of at most `2^24` rows (fewer than 90000 for Piatetsky-Shapiro), the conditions of C31 and C53 hold. -/
theorem C77_bsd_library (h : (m, oe) ∈ flPairs) (hrows : df.nrows ≤ 2 ^ 24) (hps : m = .piatetskyShapiro → df.nrows < 90000)
    (v : BSDVariant) (minS : Rat) (num depth : Nat) (x xo : Params) (cfg : BSDConfig)
    (hcfg : cfg = BSDConfig.new v minS m.computeFl oe.computeFl num depth x xo) :
    BSDAbove cfg df target ∧ BSDBounds cfg df target ∧ BSDMonotone cfg df target ∧
      ∀ X, Describes target X → OccursIn df X → (∃ q, bsdQuality cfg df target X = .ok q) ∧ ∃ o, bsdEstimate cfg df target X = .ok o := by
  obtain ⟨n1, n2⟩ := needs_counts h
  have hm : m = .wracc ∨ m = .piatetskyShapiro := by
    simp only [flPairs, List.mem_cons, Prod.mk.injEq, List.not_mem_nil, or_false] at h
    rcases h with ⟨rfl, _⟩ | ⟨rfl, _⟩ | ⟨rfl, _⟩ <;> simp
  have hN0 := counts_total (df := df) (target := target)
  have hN := hN0.trans hrows
  have hq : ∀ X, bsdQuality cfg df target X = flQuality m df target X := by
    intro X; subst hcfg; exact paramsFor_fl _ n1 _ _ _ _ _
  have ho : ∀ X, bsdEstimate cfg df target X = flQuality oe df target X := by
    intro X; subst hcfg; exact paramsFor_fl _ n2 _ _ _ _ _
  have hb := fun X Y (hXY : ∀ s ∈ X, s ∈ Y) (hY : OccursIn df Y) =>
    pair_bound h (tpOf df target X) (fpOf df target X) (tpOf df target []) (fpOf df target [])
      (tpOf df target Y) (fpOf df target Y) (counts_le X).1 (counts_le X).2 (tpOf_mono hXY) (fpOf_mono hXY) (counts_pos hY) (by omega)
  refine ⟨?_, ?_, ?_, ?_⟩
  · intro X q _ hX e
    rw [hq] at e
    rcases hm with rfl | rfl
    · have := (C75_ranges .wracc _ _ _ _ (counts_le X).1 (counts_le X).2 (fun _ => hN) q e).1 (-1/4) rfl
      linarith
    · obtain ⟨x0, hx0⟩ := defined_of_fl e
      obtain ⟨y, hy, herr⟩ := C76_error .piatetskyShapiro _ _ _ _ (counts_le X).1 (counts_le X).2 (by omega) x0 hx0
      have e' : Measure.piatetskyShapiro.computeFl (counts (tpOf df target X) (fpOf df target X) (tpOf df target []) (fpOf df target [])) = .ok q := e
      rw [e'] at hy
      cases hy
      obtain ⟨a, b, r, -⟩ := pairs _ _ _ _ .piatetskyShapiro x0 q hx0 e'
      rw [ps_counts a b] at r
      rw [u_eq, abs_le] at herr
      simp only [scale] at herr
      have hr := hps rfl
      have hl := counts_le (df := df) (target := target) X
      generalize tpOf df target X = tp at *
      generalize fpOf df target X = fp at *
      generalize tpOf df target [] = TP at *
      generalize fpOf df target [] = FP at *
      have t1 : (fp : Rat) ≤ FP := by exact_mod_cast hl.2
      have t2 : (0 : Rat) ≤ TP := by positivity
      have t3 : (0 : Rat) ≤ tp * FP := by positivity
      have t4 : (0 : Rat) < TP + FP := by exact_mod_cast b
      have t5 : (TP : Rat) ≤ 90000 := by exact_mod_cast (by omega : TP ≤ 90000)
      have t6 : (tp : Rat) + fp ≤ 90000 := by exact_mod_cast (by omega : tp + fp ≤ 90000)
      have lo : -90000 ≤ x0 := by
        rw [r, le_div_iff₀ t4]
        nlinarith [mul_le_mul_of_nonneg_right t1 t2]
      have hu : u ≤ 1 / 1000000 := u_small
      have hu0 := u_pos
      have : 5 * u * ((tp : Rat) + fp) ≤ 5 * (1 / 1000000) * 90000 := by
        have t7 : (0 : Rat) ≤ (tp : Rat) + fp := by positivity
        nlinarith
      linarith [herr.1]
  · intro X Y o q _ hXY hY e1 e2
    obtain ⟨q', o', w1, w2, w3⟩ := hb X Y hXY hY
    rw [ho] at e1
    rw [hq] at e2
    have e1' : oe.computeFl _ = .ok o := e1
    have e2' : m.computeFl _ = .ok q := e2
    rw [w2] at e1'
    rw [w1] at e2'
    cases e1'; cases e2'; exact w3
  · intro X Y p q _ _ hX hY ht hf e1 e2
    rw [hq] at e1 e2
    exact fl_monotone hm _ _ _ _ _ _ (counts_le Y).1 (counts_le X).2 ht hf hN p q e1 e2
  · intro X _ hX
    obtain ⟨q', o', w1, w2, w3⟩ := hb X X (by simp) hX
    rw [hq, ho]
    exact ⟨⟨_, w1⟩, _, w2⟩

/-- **C77.** The best subgroup in floating point is a best subgroup: whatever BSD, CBSD or CPBSD reports on data of at most `2^24` rows (fewer than 90000 for
Piatetsky-Shapiro), some reported subgroup has an exact quality at least that of every description of at most `max_depth + 1` frequent selectors that
occurs in the data. -/
theorem C77_bsd_best (h : (m, oe) ∈ flPairs) (hrows : df.nrows ≤ 2 ^ 24) (hps : m = .piatetskyShapiro → df.nrows < 90000)
    (v : BSDVariant) (minS : Rat) (num depth : Nat) (hn : 0 < num) (x xo : Params) (hf : NominalFrame df target) (ht : TextsFaithful df target)
    (st' : BSDState) (hfit : (BSDConfig.new v minS m.computeFl oe.computeFl num depth x xo).fit .fresh df target = .ok st')
    (X : List Selector) (hX : X ≠ []) (hXn : X.Nodup)
    (hXs : ∀ s ∈ X, BSDFrequentSel (BSDConfig.new v minS m.computeFl oe.computeFl num depth x xo) df target s) (hXl : X.length ≤ depth + 1)
    (hXo : OccursIn df X) :
    ∃ l ∈ st'.file, ∃ Y a b, l.subgroup = ⟨⟨Y⟩, targetSel target⟩ ∧ exactQuality m df target X = .ok a ∧ exactQuality m df target Y = .ok b ∧ a ≤ b := by
  obtain ⟨n1, n2⟩ := needs_counts h
  have hm : m = .wracc ∨ m = .piatetskyShapiro := by
    simp only [flPairs, List.mem_cons, Prod.mk.injEq, List.not_mem_nil, or_false] at h
    rcases h with ⟨rfl, _⟩ | ⟨rfl, _⟩ | ⟨rfl, _⟩ <;> simp
  have hN := (counts_total (df := df) (target := target)).trans hrows
  obtain ⟨c1, c2, c3, c4⟩ := C77_bsd_library (target := target) h hrows hps v minS num depth x xo _ rfl
  have hXd : Describes target X := ⟨hX, fun s hs => (hXs s hs).1.2 s (by simp)⟩
  obtain ⟨⟨q, hq⟩, -⟩ := c4 X hXd hXo
  obtain ⟨l, hl, hle⟩ := C53_best (cfg := BSDConfig.new v minS m.computeFl oe.computeFl num depth x xo) hn c1 hf ht c2 (fun _ => c3) st' hfit X q hX hXn hXs hXl hXo hq
  obtain ⟨e, _, hex⟩ := (C31_fit (cfg := BSDConfig.new v minS m.computeFl oe.computeFl num depth x xo) hn c1 hf ht st' hfit).2.2.1 l hl
  have hqX : m.computeFl (counts (tpOf df target X) (fpOf df target X) (tpOf df target []) (fpOf df target [])) = .ok q := by
    rw [← paramsFor_fl _ n1 _ _ _ _ x]; exact hq
  have hqY : m.computeFl (counts (tpOf df target e.pat.sels) (fpOf df target e.pat.sels) (tpOf df target []) (fpOf df target [])) = .ok l.quality := by
    rw [← paramsFor_fl _ n1 _ _ _ _ x]; exact hex.quality
  obtain ⟨a, ha⟩ := defined_of_fl hqX
  obtain ⟨b, hb⟩ := defined_of_fl hqY
  refine ⟨l, hl, e.pat.sels, a, b, hex.subgroup, ha, hb, ?_⟩
  by_contra hlt
  push Not at hlt
  have := C76_order m hm _ _ _ _ _ _ (counts_le e.pat.sels).1 (counts_le e.pat.sels).2 (counts_le X).1 (counts_le X).2 hN b a l.quality q hb ha hqY hqX hlt
  linarith
end

/-- **C77.** A threshold that is attained exactly is not safe: on the 4 rows of `demoFrame`, with a minimum quality of 0.125, SDMap in exact arithmetic would
write three lines; in floating point it leaves out `[b = 'p']`, whose exact WRAcc is 0.125. -/
theorem C77_threshold :
    (match SDMapConfig.new Measure.wracc.compute (1/8) (some 0) (some 0) none [] with
      | .ok c => (match c.fit ⟨0, 0, [], []⟩ demoFrame (c!"t", c!"yes") with | .ok s => s.file.map (fun l => l.subgroup.description.str) | .error _ => [])
      | .error _ => []) = [c!"[a = 'y']", c!"[a = 'y', b = 'p']", c!"[b = 'p']"] ∧
    (match SDMapConfig.new Measure.wracc.computeFl (1/8) (some 0) (some 0) none [] with
      | .ok c => (match c.fit ⟨0, 0, [], []⟩ demoFrame (c!"t", c!"yes") with | .ok s => s.file.map (fun l => l.subgroup.description.str) | .error _ => [])
      | .error _ => []) = [c!"[a = 'y']", c!"[a = 'y', b = 'p']"] := by
  refine ⟨by decide +kernel, by decide +kernel⟩

/-- the hypotheses of the theorems hold for `demoFrame`: runs in floating point of VLSD and of BSD -/
example : demoFrame.nrows ≤ 2 ^ 24 ∧
    (match (VLSDConfig.new Measure.wracc.computeFl (1/100) Measure.wraccOE1.computeFl 0 [] [] .noOrder .descending).fit .bitsets freshVL demoFrame (c!"t", c!"yes") with
      | .ok s => demoSeen (s.file.map VLine.seen) | .error _ => []) =
      [(c!"[a = 'y']", 1 / 8, 1, 0), (c!"[b = 'p']", 4503599627370495 / 36028797018963968, 2, 1), (c!"[a = 'y', b = 'p']", 1 / 8, 1, 0)] ∧
    (match (BSDConfig.new .bsd 1 Measure.wracc.computeFl Measure.wraccOE1.computeFl 1 1 [] []).fit .fresh demoFrame (c!"t", c!"yes") with
      | .ok s => demoSeen (s.file.map BSDLine.seen) | .error _ => []) = [(c!"[a = 'y']", 1 / 8, 1, 0)] := by
  refine ⟨by decide +kernel, by decide +kernel, by decide +kernel⟩

end Verif
