import Verif.Lemmas.Relabel
import Verif.Props.Monotone
/-! Properties C97 and C98: the names of columns and values do not matter; copies of all rows only scale the counts. -/
namespace Verif
open Spec

/-- the same thresholds for `k` copies of the data -/
def Spec.scaleTh (k : Nat) : Thresholds → Thresholds
  | .tpFp a b => .tpFp (k * a) (k * b)
  | .n m => .n (k * m)

/-- with all counts multiplied by `k`, the value of the measure is multiplied by `c` (and it is undefined exactly when it was, with the same exception) -/
def Spec.Scales (k : Nat) (c : Rat) (measure : Params → Except PyErr Rat) (extra : Params) : Prop :=
  ∀ tp fp TP FP : Nat, measure (paramsFor ((k * tp : Nat) : Rat) ((k * fp : Nat) : Rat) ((k * TP : Nat) : Rat) ((k * FP : Nat) : Rat) extra) =
    (measure (paramsFor tp fp TP FP extra)).map (c * ·)

/-- the line with other names, all counts multiplied by `k` and the quality multiplied by `c` -/
def Spec.relabelSeen (ρ : Str → Str) (ν : Str → Str → Str) (k : Nat) (c : Rat) (l : Seen) : Seen :=
  (⟨renamePattern ρ ν l.1.description, renameSel ρ ν l.1.target⟩, c * l.2.1, k * l.2.2.1, k * l.2.2.2.1, k * l.2.2.2.2.1, k * l.2.2.2.2.2)

section
open Classical
variable {ρ : Str → Str} {ν : Str → Str → Str} {k : Nat} {c : Rat} {df df' : Frame} {π : List Nat} {target : Str × Str}

theorem frequent_scale (hk : 0 < k) (th : Thresholds) (tp fp : Nat) : Frequent (scaleTh k th) (k * tp) (k * fp) ↔ Frequent th tp fp := by
  have hk' : (0 : Int) < k := by exact_mod_cast hk
  cases th with
  | tpFp a b =>
    simp only [scaleTh, Frequent]
    push_cast
    rw [mul_le_mul_iff_right₀ hk', mul_le_mul_iff_right₀ hk']
  | n m =>
    simp only [scaleTh, Frequent]
    push_cast
    rw [← mul_add, mul_le_mul_iff_right₀ hk']

theorem scales_one (m : Params → Except PyErr Rat) (x : Params) : Scales 1 1 m x := by
  intro tp fp TP FP
  simp only [one_mul]
  cases m (paramsFor tp fp TP FP x) <;> simp [Except.map]

/-- the counts, the occurrences and the qualities of the renamed description -/
theorem relabel_counts (h : Relabelled ρ ν k df df' π) (hf : NominalFrame df target) {X : List Selector} (hX : Describes target X) :
    tpOf df' (renameTarget ρ ν target) (ren ρ ν X) = k * tpOf df target X ∧ fpOf df' (renameTarget ρ ν target) (ren ρ ν X) = k * fpOf df target X ∧
    tpOf df' (renameTarget ρ ν target) [] = k * tpOf df target [] ∧ fpOf df' (renameTarget ρ ν target) [] = k * fpOf df target [] ∧
    (OccursIn df' (ren ρ ν X) ↔ OccursIn df X) :=
  ⟨ren_tp h hf (textEq_of_describes hX), ren_fp h hf (textEq_of_describes hX), ren_tp (X := []) h hf (by simp), ren_fp (X := []) h hf (by simp),
    ren_occurs h hf (textEq_of_describes hX)⟩

theorem relabel_reportable (h : Relabelled ρ ν k df df' π) (hf : NominalFrame df target) {th : Thresholds} {X : List Selector} (hX : Reportable th df target X) :
    Reportable (scaleTh k th) df' (renameTarget ρ ν target) (ren ρ ν X) := by
  obtain ⟨h1, h2, h3, h4⟩ := hX
  obtain ⟨e1, e2, _, _, e5⟩ := relabel_counts h hf h1
  refine ⟨(ren_describes h (textEq_of_describes h1)).2 h1, ren_sorted (textEq_of_describes h1), e5.2 h3, ?_⟩
  rw [e1, e2, frequent_scale h.copies]
  exact h4

theorem reportable_relabel (h : Relabelled ρ ν k df df' π) (hf : NominalFrame df target) {th : Thresholds} {Y : List Selector}
    (hY : Reportable (scaleTh k th) df' (renameTarget ρ ν target) Y) : ∃ X, Reportable th df target X ∧ ren ρ ν X = Y := by
  obtain ⟨h1, h2, h3, h4⟩ := hY
  obtain ⟨X, g1, g2, g3, rfl⟩ := ren_surj h hf h1 h2 h3
  obtain ⟨e1, e2, _⟩ := relabel_counts h hf g1
  rw [e1, e2, frequent_scale h.copies] at h4
  exact ⟨X, ⟨g1, g2, g3, h4⟩, rfl⟩

theorem relabel_measure (h : Relabelled ρ ν k df df' π) (hf : NominalFrame df target) {m : Params → Except PyErr Rat} {x : Params} (hs : Scales k c m x) {X : List Selector}
    (hX : Describes target X) :
    m (paramsFor (tpOf df' (renameTarget ρ ν target) (ren ρ ν X)) (fpOf df' (renameTarget ρ ν target) (ren ρ ν X)) (tpOf df' (renameTarget ρ ν target) [])
      (fpOf df' (renameTarget ρ ν target) []) x) = (m (paramsFor (tpOf df target X) (fpOf df target X) (tpOf df target []) (fpOf df target []) x)).map (c * ·) := by
  obtain ⟨e1, e2, e3, e4, _⟩ := relabel_counts h hf hX
  rw [e1, e2, e3, e4]
  exact hs _ _ _ _

theorem map_ok {r : Except PyErr Rat} {q : Rat} : r.map (c * ·) = .ok q ↔ ∃ p, r = .ok p ∧ q = c * p := by
  cases r with
  | error e => simp [Except.map]
  | ok p => simp [Except.map, eq_comm]

theorem relabel_seen_eq (X : List Selector) (q : Rat) {tp fp TP FP : Nat} :
    relabelSeen ρ ν k c (⟨⟨X⟩, targetSel target⟩, q, tp, fp, TP, FP) = (⟨⟨ren ρ ν X⟩, targetSel (renameTarget ρ ν target)⟩, c * q, k * tp, k * fp, k * TP, k * FP) := rfl

/-! ## SDMap -/

theorem relabel_calls (h : Relabelled ρ ν k df df' π) (hf : NominalFrame df target) {th : Thresholds} {l l' : List (Pattern × Cnt)}
    (hl : CallsExact th df target l) (hl' : CallsExact (scaleTh k th) df' (renameTarget ρ ν target) l') :
    (l'.map (·.1)).Perm (l.map (fun r => renamePattern ρ ν r.1)) := by
  have hn : (l.map (fun r => renamePattern ρ ν r.1)).Nodup := by
    have := hl.distinct
    rw [show (fun r : Pattern × Cnt => renamePattern ρ ν r.1) = renamePattern ρ ν ∘ (·.1) from rfl, ← List.map_map]
    refine this.map_on ?_
    intro p hp q hq he
    obtain ⟨a, ha, rfl⟩ := List.mem_map.1 hp
    obtain ⟨b, hb, rfl⟩ := List.mem_map.1 hq
    obtain ⟨⟨d1, s1, _⟩, _⟩ := hl.sound a ha
    obtain ⟨⟨d2, s2, _⟩, _⟩ := hl.sound b hb
    have := ren_inj h (textEq_of_describes d1) (textEq_of_describes d2) s1 s2 (congrArg Pattern.sels he)
    obtain ⟨⟨x⟩, _⟩ := a
    obtain ⟨⟨y⟩, _⟩ := b
    simp only at this ⊢
    rw [this]
  refine (List.perm_ext_iff_of_nodup hl'.distinct hn).2 (fun p => ⟨fun hp => ?_, fun hp => ?_⟩)
  · obtain ⟨a, ha, rfl⟩ := List.mem_map.1 hp
    obtain ⟨X, hX, he⟩ := reportable_relabel h hf (hl'.sound a ha).1
    obtain ⟨b, hb, rfl⟩ := hl.complete X hX
    refine List.mem_map.2 ⟨b, hb, ?_⟩
    obtain ⟨⟨x⟩, _⟩ := a
    obtain ⟨⟨y⟩, _⟩ := b
    simp only at he
    subst he
    rfl
  · obtain ⟨b, hb, rfl⟩ := List.mem_map.1 hp
    obtain ⟨a, ha, he⟩ := hl'.complete _ (relabel_reportable h hf (hl.sound b hb).1)
    refine List.mem_map.2 ⟨a, ha, ?_⟩
    obtain ⟨⟨x⟩, _⟩ := a
    simp only at he
    subst he
    rfl

/-- SDMap on renamed data with `k` copies of every row -/
theorem relabel_sdmap (h : Relabelled ρ ν k df df' π) (hf : NominalFrame df target) (hkf : KeysFaithful df target) (hkf' : KeysFaithful df' (renameTarget ρ ν target))
    (hc : 0 < c) (cfg : SDMapConfig) (hs : Scales k c cfg.measure cfg.extra) (st : SDMapState) (h0 : st.file = []) :
    ((∃ r, cfg.fit st df target = .ok r) ↔ ∃ r, ({ cfg with th := scaleTh k cfg.th, minQuality := c * cfg.minQuality } : SDMapConfig).fit st df' (renameTarget ρ ν target) = .ok r) ∧
    ∀ r r', cfg.fit st df target = .ok r → ({ cfg with th := scaleTh k cfg.th, minQuality := c * cfg.minQuality } : SDMapConfig).fit st df' (renameTarget ρ ν target) = .ok r' →
      (r'.file.map ResultLine.seen).Perm (r.file.map (fun l => relabelSeen ρ ν k c (ResultLine.seen l))) ∧ r'.selected = r.selected ∧ r'.unselected = r.unselected := by
  have hf' := relabel_nominal h hf
  generalize hcfg : ({ cfg with th := scaleTh k cfg.th, minQuality := c * cfg.minQuality } : SDMapConfig) = cfg'
  have hth : cfg'.th = scaleTh k cfg.th := by rw [← hcfg]
  have hmq : cfg'.minQuality = c * cfg.minQuality := by rw [← hcfg]
  have hqual : ∀ X, Describes target X → qualityOf cfg' df' (renameTarget ρ ν target) (ren ρ ν X) = (qualityOf cfg df target X).map (c * ·) := by
    intro X hX
    rw [← hcfg]
    exact relabel_measure h hf hs hX
  constructor
  · rw [C24_total cfg df target hf hkf st, C24_total cfg' df' _ hf' hkf' st]
    constructor
    · intro hall Y hY
      rw [hth] at hY
      obtain ⟨X, hX, rfl⟩ := reportable_relabel h hf hY
      obtain ⟨q, hq⟩ := hall X hX
      exact ⟨c * q, by rw [hqual X hX.1, hq]; rfl⟩
    · intro hall X hX
      obtain ⟨q, hq⟩ := hall _ (by rw [hth]; exact relabel_reportable h hf hX)
      rw [hqual X hX.1] at hq
      obtain ⟨p, hp, _⟩ := map_ok.1 hq
      exact ⟨p, hp⟩
  · intro r r' hr hr'
    obtain ⟨l, a1, a2, a3, a4, a5⟩ := fit_spec hf hkf hr
    obtain ⟨l', b1, b2, b3, b4, b5⟩ := fit_spec hf' hkf' hr'
    rw [hth] at b1
    have hcl : l'.length = l.length := by simpa using (relabel_calls h hf a1 b1).length_eq
    obtain ⟨n1, m1⟩ := sdmap_lines hf hkf h0 hr
    obtain ⟨n2, m2⟩ := sdmap_lines hf' hkf' h0 hr'
    have hfile : (r'.file.map ResultLine.seen).Perm (r.file.map (fun l => relabelSeen ρ ν k c (ResultLine.seen l))) := by
      refine (List.perm_ext_iff_of_nodup ?_ ?_).2 (fun y => ?_)
      · refine n2.of_map.map ?_
        intro a b hab
        cases a; cases b
        simp only [ResultLine.seen, Prod.mk.injEq] at hab
        obtain ⟨e1, e2, e3, e4, e5, e6⟩ := hab
        subst e1 e2 e3 e4 e5 e6
        rfl
      · refine n1.of_map.map_on ?_
        intro a ha b hb hab
        obtain ⟨X, q, g1, g2, _, rfl⟩ := (m1 a).1 ha
        obtain ⟨Y, p, g3, g4, _, rfl⟩ := (m1 b).1 hb
        have : ren ρ ν X = ren ρ ν Y := congrArg (fun s : Seen => s.1.description.sels) hab
        have := ren_inj h (textEq_of_describes g1.1) (textEq_of_describes g3.1) g1.2.1 g3.2.1 this
        subst this
        rw [g2] at g4
        cases g4
        rfl
      · rw [List.mem_map, List.mem_map]
        constructor
        · rintro ⟨b, hb, rfl⟩
          obtain ⟨Y, p, g1, g2, g3, rfl⟩ := (m2 b).1 hb
          rw [hth] at g1
          obtain ⟨X, hX, rfl⟩ := reportable_relabel h hf g1
          rw [hqual X hX.1] at g2
          obtain ⟨q, hq, rfl⟩ := map_ok.1 g2
          obtain ⟨e1, e2, e3, e4, _⟩ := relabel_counts h hf hX.1
          refine ⟨lineOf df target X q, (m1 _).2 ⟨X, q, hX, hq, ?_, rfl⟩, ?_⟩
          · rw [hmq] at g3; exact le_of_mul_le_mul_left g3 hc
          · unfold lineOf ResultLine.seen
            rw [relabel_seen_eq, e1, e2, e3, e4]
        · rintro ⟨a, ha, rfl⟩
          obtain ⟨X, q, g1, g2, g3, rfl⟩ := (m1 a).1 ha
          obtain ⟨e1, e2, e3, e4, _⟩ := relabel_counts h hf g1.1
          refine ⟨lineOf df' (renameTarget ρ ν target) (ren ρ ν X) (c * q), (m2 _).2 ⟨_, c * q, by rw [hth]; exact relabel_reportable h hf g1, by rw [hqual X g1.1, g2]; rfl, ?_, rfl⟩, ?_⟩
          · rw [hmq]; exact mul_le_mul_of_nonneg_left g3 hc.le
          · unfold lineOf ResultLine.seen
            rw [relabel_seen_eq, e1, e2, e3, e4]
    refine ⟨hfile, ?_⟩
    have hlen := hfile.length_eq
    rw [List.length_map, List.length_map] at hlen
    by_cases hce : l = []
    · have hce' : l' = [] := List.eq_nil_of_length_eq_zero (by rw [hcl, hce]; rfl)
      rw [a4 hce, b4 hce']
      exact ⟨rfl, rfl⟩
    · have hce' : l' ≠ [] := fun hn => hce (List.eq_nil_of_length_eq_zero (by rw [← hcl, hn]; rfl))
      have p1 := (a5 hce).1
      have q1 := (b5 hce').1
      constructor <;> omega

/-- SDMapStar with `num_subgroups = 0` -/
theorem relabel_star (h : Relabelled ρ ν k df df' π) (hf : NominalFrame df target) (hkf : KeysFaithful df target) (hkf' : KeysFaithful df' (renameTarget ρ ν target))
    (hc : 0 < c) (cfg : SDMapStarConfig) (hn : cfg.num = 0) (hs : Scales k c cfg.measure cfg.extra) (st : StarState) (h0 : st.base.file = []) :
    ((∃ r, cfg.fit st df target = .ok r) ↔ ∃ r, ({ cfg with th := scaleTh k cfg.th, minQuality := c * cfg.minQuality } : SDMapStarConfig).fit st df' (renameTarget ρ ν target) = .ok r) ∧
    ∀ r r', cfg.fit st df target = .ok r → ({ cfg with th := scaleTh k cfg.th, minQuality := c * cfg.minQuality } : SDMapStarConfig).fit st df' (renameTarget ρ ν target) = .ok r' →
      (r'.base.file.map ResultLine.seen).Perm (r.base.file.map (fun l => relabelSeen ρ ν k c (ResultLine.seen l))) ∧ r'.base.selected = r.base.selected ∧
      r'.base.unselected = r.base.unselected := by
  obtain ⟨a1, a2⟩ := C26 cfg hn df target hf hkf st
  obtain ⟨b1, b2⟩ := C26 { cfg with th := scaleTh k cfg.th, minQuality := c * cfg.minQuality } hn df' _ (relabel_nominal h hf) hkf' st
  obtain ⟨c1, c2⟩ := relabel_sdmap h hf hkf hkf' hc cfg.toSDMapConfig hs st.base h0
  refine ⟨a1.trans (c1.trans b1.symm), fun r r' hr hr' => ?_⟩
  obtain ⟨s, hs⟩ := a1.1 ⟨r, hr⟩
  obtain ⟨s', hs'⟩ := b1.1 ⟨r', hr'⟩
  obtain ⟨_, _, e1, e2, e3⟩ := a2 r s hr hs
  obtain ⟨_, _, f1, f2, f3⟩ := b2 r' s' hr' hs'
  obtain ⟨g1, g2, g3⟩ := c2 s s' hs hs'
  exact ⟨(f1.map _).trans (g1.trans (e1.symm.map _)), by rw [f2, g2, e2], by rw [f3, g3, e3]⟩

/-! ## VLSD -/

theorem relabel_vlsd {Seq : Type} {has : Seq → Nat → Prop} {cfg cfg' : VLSDConfig} (h : Relabelled ρ ν k df df' π) (hf : NominalFrame df target) (hc : 0 < c)
    (hm : cfg'.measure = cfg.measure) (hx : cfg'.extra = cfg.extra) (hq : cfg'.minQuality = c * cfg.minQuality) (hsc : Scales k c cfg.measure cfg.extra)
    (hs : Suits cfg df target) (hs' : Suits cfg' df' (renameTarget ρ ν target)) (hle : cfg.minEstimate ≤ cfg.minQuality) (hle' : cfg'.minEstimate ≤ cfg'.minQuality)
    {st r r' : VLState Seq} {l l' : List (VList Selector Seq)} (hr : VLSDRun has cfg df target st r l) (hr' : VLSDRun has cfg' df' (renameTarget ρ ν target) st r' l') :
    (r'.file.map VLine.seen).Perm (r.file.map (fun l => relabelSeen ρ ν k c (VLine.seen l))) ∧ r'.selected = r.selected := by
  have hqual : ∀ X, Describes target X → vlQualityOf cfg' df' (renameTarget ρ ν target) (ren ρ ν X) = (vlQualityOf cfg df target X).map (c * ·) := by
    intro X hX
    unfold vlQualityOf
    rw [hm, hx]
    exact relabel_measure h hf hsc hX
  have hperm : (r'.file.map VLine.seen).Perm (r.file.map (fun l => relabelSeen ρ ν k c (VLine.seen l))) := by
    rw [show (fun l : VLine Seq => relabelSeen ρ ν k c (VLine.seen l)) = relabelSeen ρ ν k c ∘ VLine.seen from rfl, ← List.map_map]
    refine (List.perm_ext_iff_of_nodup (vlsd_seen_nodup hr').of_map ((vlsd_seen_nodup hr).of_map.map_on ?_)).2 (fun y => ?_)
    · intro a ha b hb hab
      obtain ⟨X, q, g1, g2, g3, g4, _, rfl⟩ := (vlsd_seen hr hs.bounds hs.defined hle a).1 ha
      obtain ⟨Y, p, g1', g2', g3', g4', _, rfl⟩ := (vlsd_seen hr hs.bounds hs.defined hle b).1 hb
      have : ren ρ ν X = ren ρ ν Y := congrArg (fun s : Seen => s.1.description.sels) hab
      have := ren_inj h (textEq_of_describes g1) (textEq_of_describes g1') g2 g2' this
      subst this
      rw [g4] at g4'
      cases g4'
      rfl
    · rw [vlsd_seen hr' hs'.bounds hs'.defined hle', List.mem_map]
      constructor
      · rintro ⟨Y, p, g1, g2, g3, g4, g5, rfl⟩
        obtain ⟨X, x1, x2, x3, rfl⟩ := ren_surj h hf g1 g2 g3
        rw [hqual X x1] at g4
        obtain ⟨q, hq', rfl⟩ := map_ok.1 g4
        obtain ⟨e1, e2, e3, e4, _⟩ := relabel_counts h hf x1
        refine ⟨_, (vlsd_seen hr hs.bounds hs.defined hle _).2 ⟨X, q, x1, x2, x3, hq', ?_, rfl⟩, ?_⟩
        · rw [hq] at g5; exact le_of_mul_le_mul_left g5 hc
        · rw [relabel_seen_eq, e1, e2, e3, e4]
      · rintro ⟨a, ha, rfl⟩
        obtain ⟨X, q, x1, x2, x3, x4, x5, rfl⟩ := (vlsd_seen hr hs.bounds hs.defined hle a).1 ha
        obtain ⟨e1, e2, e3, e4, e5⟩ := relabel_counts h hf x1
        refine ⟨ren ρ ν X, c * q, (ren_describes h (textEq_of_describes x1)).2 x1, ren_sorted (textEq_of_describes x1), e5.2 x3, by rw [hqual X x1, x4]; rfl, ?_, ?_⟩
        · rw [hq]; exact mul_le_mul_of_nonneg_left x5 hc.le
        · rw [relabel_seen_eq, e1, e2, e3, e4]
  refine ⟨hperm, ?_⟩
  have := hperm.length_eq
  rw [List.length_map, List.length_map] at this
  rw [hr.selected, hr'.selected, this]

/-! ## BSD, CBSD, CPBSD -/

theorem ren_perm (h : Relabelled ρ ν k df df' π) {X : List Selector} (hX : ∀ s ∈ X, TextEq s) (hn : X.Nodup) : (ren ρ ν X).Perm (X.map (renameSel ρ ν)) := by
  refine (List.perm_ext_iff_of_nodup ?_ (hn.map_on (fun a ha b hb he => rename_inj h.names h.values (hX a ha) (hX b hb) he))).2 (fun t => ?_)
  · refine (ren_sorted hX).imp_of_mem ?_
    rintro u v hu hv huv rfl
    exact absurd ((TextEq.lt_key (ren_text hX u hu) (ren_text hX u hu)).1 huv) (lt_irrefl _)
  · rw [mem_ren hX, List.mem_map]

theorem sorted_nodup {X : List Selector} (hX : ∀ s ∈ X, TextEq s) (hs : X.Pairwise (fun a b => a.lt b = true)) : X.Nodup := by
  refine hs.imp_of_mem ?_
  rintro u v hu hv huv rfl
  exact absurd ((TextEq.lt_key (hX u hu) (hX u hu)).1 huv) (lt_irrefl _)

theorem ren_single {s : Selector} (hs : TextEq s) : ren ρ ν [s] = [renameSel ρ ν s] := by
  have hX : ∀ t ∈ [s], TextEq t := by intro t ht; rw [List.mem_singleton.1 ht]; exact hs
  refine sorted_ext ((sorted_iff_lt (ren_text hX)).1 (ren_sorted hX)) (List.pairwise_singleton _ _) (ren_text hX) (fun t => ?_)
  rw [mem_ren hX]
  simp [eq_comm]

theorem relabel_freqSel (h : Relabelled ρ ν k df df' π) (hf : NominalFrame df target) (cfg : BSDConfig) {s : Selector} (hs : TextEq s) :
    BSDFrequentSel { cfg with minSupport := k * cfg.minSupport } df' (renameTarget ρ ν target) (renameSel ρ ν s) ↔ BSDFrequentSel cfg df target s := by
  have hX : ∀ t ∈ [s], TextEq t := by intro t ht; rw [List.mem_singleton.1 ht]; exact hs
  have hk : (0 : Rat) < k := by exact_mod_cast h.copies
  unfold BSDFrequentSel
  rw [← ren_single hs, ren_describes h hX, ren_occurs h hf hX, ren_tp h hf hX]
  push_cast
  rw [mul_le_mul_iff_right₀ hk]

/-- BSD, CBSD and CPBSD on renamed data with `k` copies of every row: the best quality -/
theorem relabel_bsd (h : Relabelled ρ ν k df df' π) (hf : NominalFrame df target) (hc : 0 < c) (cfg cfg' : BSDConfig) (hcfg : cfg' = { cfg with minSupport := k * cfg.minSupport })
    (hs : Scales k c cfg.measure cfg.extra) (hn : 0 < cfg.num)
    (ht : TextsFaithful df target) (ha : BSDAbove cfg df target) (hb : BSDBounds cfg df target) (hm : cfg.variant = .bsd → BSDMonotone cfg df target)
    (ht' : TextsFaithful df' (renameTarget ρ ν target)) (ha' : BSDAbove cfg' df' (renameTarget ρ ν target)) (hb' : BSDBounds cfg' df' (renameTarget ρ ν target))
    (hm' : cfg.variant = .bsd → BSDMonotone cfg' df' (renameTarget ρ ν target))
    {r r' : BSDState} (hr : cfg.fit .fresh df target = .ok r) (hr' : cfg'.fit .fresh df' (renameTarget ρ ν target) = .ok r') :
    (∀ l ∈ r.file, ∃ l' ∈ r'.file, c * l.quality ≤ l'.quality) ∧ (∀ l' ∈ r'.file, ∃ l ∈ r.file, l'.quality ≤ c * l.quality) := by
  have hf' := relabel_nominal h hf
  have hn' : 0 < cfg'.num := by rw [hcfg]; exact hn
  have hqual : ∀ X, Describes target X → bsdQuality cfg' df' (renameTarget ρ ν target) (ren ρ ν X) = (bsdQuality cfg df target X).map (c * ·) := by
    intro X hX
    rw [hcfg]
    exact relabel_measure h hf hs hX
  constructor
  · intro l hl
    obtain ⟨e, he, hx⟩ := (C31_fit hn ha hf ht r hr).2.2.1 l hl
    obtain ⟨_, h2, h3⟩ := (C34_exact hn ha hf ht r hr).1 e he
    have hX := textEq_of_describes hx.describes
    have hnod := sorted_nodup hX hx.sorted
    have hd := (ren_describes h hX).2 hx.describes
    refine C53_best hn' ha' hf' ht' hb' (fun hv => hm' (by rw [hcfg] at hv; exact hv)) r' hr' (ren ρ ν e.pat.sels) (c * l.quality) hd.1 (sorted_nodup (ren_text hX) (ren_sorted hX))
      (fun t ht => ?_) ?_ ((ren_occurs h hf hX).2 hx.occurs) (by rw [hqual _ hx.describes, hx.quality]; rfl)
    · obtain ⟨s, hs, rfl⟩ := (mem_ren hX t).1 ht
      rw [hcfg, relabel_freqSel h hf cfg (hX s hs)]
      exact h2 s hs
    · rw [(ren_perm h hX hnod).length_eq, List.length_map, hcfg]
      exact h3
  · intro l hl
    obtain ⟨e, he, hx⟩ := (C31_fit hn' ha' hf' ht' r' hr').2.2.1 l hl
    obtain ⟨_, h2, h3⟩ := (C34_exact hn' ha' hf' ht' r' hr').1 e he
    obtain ⟨X, x1, x2, x3, x4⟩ := ren_surj h hf hx.describes hx.sorted hx.occurs
    have hX := textEq_of_describes x1
    have hnod := sorted_nodup hX x2
    have hq := hx.quality
    rw [← x4, hqual X x1] at hq
    obtain ⟨q, hq1, hq2⟩ := map_ok.1 hq
    have hfs : ∀ s ∈ X, BSDFrequentSel cfg df target s := by
      intro s hs
      have := h2 (renameSel ρ ν s) (by rw [← x4]; exact (mem_ren hX _).2 ⟨s, hs, rfl⟩)
      rw [hcfg, relabel_freqSel h hf cfg (hX s hs)] at this
      exact this
    have hlen : X.length ≤ cfg.maxDepth + 1 := by
      rw [← x4, (ren_perm h hX hnod).length_eq, List.length_map, hcfg] at h3
      exact h3
    obtain ⟨l0, hl0, hle⟩ := C53_best hn ha hf ht hb hm r hr X q x1.1 hnod hfs hlen x3 hq1
    exact ⟨l0, hl0, by rw [hq2]; exact mul_le_mul_of_nonneg_left hle hc.le⟩

/-! ## C97: other names -/

/-- a line with other names -/
def Spec.renameSeen (ρ : Str → Str) (ν : Str → Str → Str) (l : Seen) : Seen := (⟨renamePattern ρ ν l.1.description, renameSel ρ ν l.1.target⟩, l.2)

theorem relabelSeen_one : relabelSeen ρ ν 1 1 = renameSeen ρ ν := by
  funext l
  simp only [relabelSeen, renameSeen, one_mul]

theorem lookup_rename (hρ : Function.Injective ρ) (cols : List (Str × List Val)) (name : Str) :
    (cols.map (fun c => (ρ c.1, c.2.map (renameVal (ν c.1))))).lookup (ρ name) = (cols.lookup name).map (fun col => col.map (renameVal (ν name))) := by
  induction cols with
  | nil => rfl
  | cons c cols ih =>
    obtain ⟨a, col⟩ := c
    rw [List.map_cons]
    by_cases h : name = a
    · subst h
      simp [List.lookup_cons]
    · have h1 : (name == a) = false := beq_false_of_ne h
      have h2 : (ρ name == ρ a) = false := beq_false_of_ne (fun hh => h (hρ hh))
      simp only [List.lookup_cons, h1, h2]
      exact ih

theorem renameFrame_relabelled (hρ : Function.Injective ρ) (hν : ∀ a, Function.Injective (ν a)) (hf : NominalFrame df target) :
    Relabelled ρ ν 1 df (renameFrame ρ ν df) (List.range df.nrows) := by
  refine ⟨Nat.one_pos, hρ, hν, by simp, by simp [renameFrame], by simp [renameFrame, Function.comp_def], fun name col hc => ?_⟩
  refine ⟨col.map (renameVal (ν name)), by unfold renameFrame; simp only; rw [lookup_rename hρ, hc]; rfl, ?_⟩
  have hlen : col.length = df.nrows := hf.wf _ (mem_of_lookup hc)
  apply List.ext_getElem?
  intro i
  by_cases hi : i < df.nrows
  · simp only [List.getElem?_map, List.getElem?_range hi, Option.map_some]
    rw [List.getElem?_eq_getElem (by omega)]
    rfl
  · rw [List.getElem?_eq_none (by simp; omega), List.getElem?_eq_none (by simp; omega)]

theorem scaleTh_one (th : Thresholds) : scaleTh 1 th = th := by cases th <;> simp [scaleTh]

/-- C97: in the renamed data the renamed selectors cover the same rows and have the same counts. -/
theorem C97_counts (hρ : Function.Injective ρ) (hν : ∀ a, Function.Injective (ν a)) (hf : NominalFrame df target) (p : Pattern) (hp : Describes target p.sels) :
    (∀ i, i < df.nrows → (Covers (renameFrame ρ ν df) (renamePattern ρ ν p).sels i ↔ Covers df p.sels i)) ∧
    tpOf (renameFrame ρ ν df) (renameTarget ρ ν target) (renamePattern ρ ν p).sels = tpOf df target p.sels ∧
    fpOf (renameFrame ρ ν df) (renameTarget ρ ν target) (renamePattern ρ ν p).sels = fpOf df target p.sels := by
  have h := renameFrame_relabelled hρ hν hf
  obtain ⟨e1, e2, _⟩ := relabel_counts h hf hp
  rw [one_mul] at e1 e2
  exact ⟨fun i hi => ren_covers h hf (textEq_of_describes hp) (List.getElem?_range hi), e1, e2⟩

/-- C97, SDMap: with other names of columns and values, `fit` ends without error exactly when it does with the original names, and then writes the renamed lines, with the same
qualities and counts, and ends with the same counters (only the order of the lines may differ). -/
theorem C97_sdmap (hρ : Function.Injective ρ) (hν : ∀ a, Function.Injective (ν a)) (hf : NominalFrame df target) (hkf : KeysFaithful df target)
    (hkf' : KeysFaithful (renameFrame ρ ν df) (renameTarget ρ ν target)) (cfg : SDMapConfig) (st : SDMapState) (h0 : st.file = []) :
    ((∃ r, cfg.fit st df target = .ok r) ↔ ∃ r, cfg.fit st (renameFrame ρ ν df) (renameTarget ρ ν target) = .ok r) ∧
    ∀ r r', cfg.fit st df target = .ok r → cfg.fit st (renameFrame ρ ν df) (renameTarget ρ ν target) = .ok r' →
      (r'.file.map ResultLine.seen).Perm (r.file.map (fun l => renameSeen ρ ν (ResultLine.seen l))) ∧ r'.selected = r.selected ∧ r'.unselected = r.unselected := by
  have := relabel_sdmap (renameFrame_relabelled hρ hν hf) hf hkf hkf' one_pos cfg (scales_one _ _) st h0
  rw [scaleTh_one, one_mul, relabelSeen_one] at this
  exact this

/-- C97, SDMapStar with `num_subgroups = 0`: the same. -/
theorem C97_star (hρ : Function.Injective ρ) (hν : ∀ a, Function.Injective (ν a)) (hf : NominalFrame df target) (hkf : KeysFaithful df target)
    (hkf' : KeysFaithful (renameFrame ρ ν df) (renameTarget ρ ν target)) (cfg : SDMapStarConfig) (hn : cfg.num = 0) (st : StarState) (h0 : st.base.file = []) :
    ((∃ r, cfg.fit st df target = .ok r) ↔ ∃ r, cfg.fit st (renameFrame ρ ν df) (renameTarget ρ ν target) = .ok r) ∧
    ∀ r r', cfg.fit st df target = .ok r → cfg.fit st (renameFrame ρ ν df) (renameTarget ρ ν target) = .ok r' →
      (r'.base.file.map ResultLine.seen).Perm (r.base.file.map (fun l => renameSeen ρ ν (ResultLine.seen l))) ∧ r'.base.selected = r.base.selected ∧
      r'.base.unselected = r.base.unselected := by
  have := relabel_star (renameFrame_relabelled hρ hν hf) hf hkf hkf' one_pos cfg hn (scales_one _ _) st h0
  rw [scaleTh_one, one_mul, relabelSeen_one] at this
  exact this

section
variable (measure : Params → Except PyErr Rat) (minQ : Rat) (estimate : Params → Except PyErr Rat) (minE : Rat) (x xo : Params) (s1 s2 : SortCriterion) (he : LookupOnly estimate)
include he

/-- C97, VLSD with an estimate that suits the measure (C70) and a threshold for it that is not above that of the quality: with other names the renamed lines are written. -/
theorem C97_vlsd (hρ : Function.Injective ρ) (hν : ∀ a, Function.Injective (ν a)) (hf : NominalFrame df target)
    (hs : Suits (VLSDConfig.new measure minQ estimate minE x xo s1 s2) df target)
    (hs' : Suits (VLSDConfig.new measure minQ estimate minE x xo s1 s2) (renameFrame ρ ν df) (renameTarget ρ ν target)) (hle : minE ≤ minQ) (st r r' : VLState Bits)
    (hr : (VLSDConfig.new measure minQ estimate minE x xo s1 s2).fit .bitsets st df target = .ok r)
    (hr' : (VLSDConfig.new measure minQ estimate minE x xo s1 s2).fit .bitsets st (renameFrame ρ ν df) (renameTarget ρ ν target) = .ok r') :
    (r'.file.map VLine.seen).Perm (r.file.map (fun l => renameSeen ρ ν (VLine.seen l))) ∧ r'.selected = r.selected := by
  obtain ⟨c, a⟩ := C29_bitsets measure minQ estimate minE x xo s1 s2 he df target hf st r hr
  obtain ⟨c', b⟩ := C29_bitsets measure minQ estimate minE x xo s1 s2 he _ _ (relabel_nominal (renameFrame_relabelled hρ hν hf) hf) st r' hr'
  have := relabel_vlsd (renameFrame_relabelled hρ hν hf) hf one_pos rfl rfl (one_mul _).symm (scales_one _ _) hs hs' hle hle a b
  rw [relabelSeen_one] at this
  exact this
end

/-- C97, BSD, CBSD and CPBSD: under the conditions of C53 for both, the best quality that is reported is the same. -/
theorem C97_bsd_best (hρ : Function.Injective ρ) (hν : ∀ a, Function.Injective (ν a)) (hf : NominalFrame df target) (cfg : BSDConfig) (hn : 0 < cfg.num)
    (ht : TextsFaithful df target) (ha : BSDAbove cfg df target) (hb : BSDBounds cfg df target) (hm : cfg.variant = .bsd → BSDMonotone cfg df target)
    (ht' : TextsFaithful (renameFrame ρ ν df) (renameTarget ρ ν target)) (ha' : BSDAbove cfg (renameFrame ρ ν df) (renameTarget ρ ν target))
    (hb' : BSDBounds cfg (renameFrame ρ ν df) (renameTarget ρ ν target)) (hm' : cfg.variant = .bsd → BSDMonotone cfg (renameFrame ρ ν df) (renameTarget ρ ν target))
    (r r' : BSDState) (hr : cfg.fit .fresh df target = .ok r) (hr' : cfg.fit .fresh (renameFrame ρ ν df) (renameTarget ρ ν target) = .ok r') :
    (∀ l ∈ r.file, ∃ l' ∈ r'.file, l.quality ≤ l'.quality) ∧ (∀ l' ∈ r'.file, ∃ l ∈ r.file, l'.quality ≤ l.quality) := by
  have := relabel_bsd (renameFrame_relabelled hρ hν hf) hf one_pos cfg cfg (by simp) (scales_one _ _) hn ht ha hb hm ht' ha' hb' hm' hr hr'
  simp only [one_mul] at this
  exact this

/-! ## C98: several copies of every row -/

/-- a line with all counts multiplied by `k` and the quality multiplied by `c` -/
def Spec.scaleSeen (k : Nat) (c : Rat) (l : Seen) : Seen := (l.1, c * l.2.1, k * l.2.2.1, k * l.2.2.2.1, k * l.2.2.2.2.1, k * l.2.2.2.2.2)

theorem renameVal_id : renameVal id = id := by
  funext v
  cases v <;> rfl

theorem Spec.Copied.relabelled (h : Copied k df df' π) : Relabelled id (fun _ => id) k df df' π :=
  ⟨h.copies, Function.injective_id, fun _ => Function.injective_id, h.perm, h.rows, h.columns, fun name col hc => by
    obtain ⟨col', h1, h2⟩ := h.cells name col hc
    refine ⟨col', h1, ?_⟩
    rw [h2, renameVal_id]
    simp⟩

theorem renameSel_id (s : Selector) : renameSel id (fun _ => id) s = s := by
  unfold renameSel
  rw [renameVal_id]
  rfl

theorem ren_id {X : List Selector} (hX : ∀ s ∈ X, TextEq s) (hs : X.Pairwise (fun a b => a.lt b = true)) : ren id (fun _ => id) X = X := by
  refine sorted_ext ((sorted_iff_lt (ren_text hX)).1 (ren_sorted hX)) ((sorted_iff_lt hX).1 hs) (ren_text hX) (fun t => ?_)
  rw [mem_ren hX]
  simp [renameSel_id]

theorem relabelSeen_id {X : List Selector} (hd : Describes target X) (hs : X.Pairwise (fun a b => a.lt b = true)) (q : Rat) (tp fp TP FP : Nat) :
    relabelSeen id (fun _ => id) k c (⟨⟨X⟩, targetSel target⟩, q, tp, fp, TP, FP) = scaleSeen k c (⟨⟨X⟩, targetSel target⟩, q, tp, fp, TP, FP) := by
  rw [relabel_seen_eq, ren_id (textEq_of_describes hd) hs]
  rfl

theorem renameTarget_id (t : Str × Str) : renameTarget id (fun _ => id) t = t := rfl

/-- C98: in the copied data a description covers exactly the copies of the rows it covers, and has `k` times as many positives and negatives. -/
theorem C98_counts (h : Copied k df df' π) (hf : NominalFrame df target) (X : List Selector) (hX : Describes target X) :
    (∀ i j : Nat, π[i]? = some j → (Covers df' X i ↔ Covers df X j)) ∧ tpOf df' target X = k * tpOf df target X ∧ fpOf df' target X = k * fpOf df target X := by
  have hR := h.relabelled
  have hX' := textEq_of_describes hX
  have hm : ∀ i j : Nat, π[i]? = some j → (Covers df' X i ↔ Covers df X j) := by
    intro i j hj
    rw [← ren_covers hR hf hX' hj]
    unfold Covers
    simp only [mem_ren hX', renameSel_id, exists_eq_right]
  have ht : ∀ i j : Nat, π[i]? = some j → (MatchesAt df' (targetSel target) i ↔ MatchesAt df (targetSel target) j) := by
    intro i j hj
    have := relabel_matches hR hf (target_text (target := target)) hj
    rwa [renameSel_id] at this
  exact ⟨hm, relabel_count hR (fun i j hj => and_congr (hm i j hj) (ht i j hj)), relabel_count hR (fun i j hj => and_congr (hm i j hj) (not_congr (ht i j hj)))⟩

/-- C98, SDMap: with `k` copies of every row, the minimum counts multiplied by `k` and the minimum quality by the factor `c` of the measure, `fit` ends without error exactly when it
does on the original data, and then writes the same lines, with the counts multiplied by `k` and the qualities by `c`. -/
theorem C98_sdmap (h : Copied k df df' π) (hf : NominalFrame df target) (hkf : KeysFaithful df target) (hkf' : KeysFaithful df' target) (hc : 0 < c) (cfg : SDMapConfig)
    (hs : Scales k c cfg.measure cfg.extra) (st : SDMapState) (h0 : st.file = []) :
    ((∃ r, cfg.fit st df target = .ok r) ↔ ∃ r, ({ cfg with th := scaleTh k cfg.th, minQuality := c * cfg.minQuality } : SDMapConfig).fit st df' target = .ok r) ∧
    ∀ r r', cfg.fit st df target = .ok r → ({ cfg with th := scaleTh k cfg.th, minQuality := c * cfg.minQuality } : SDMapConfig).fit st df' target = .ok r' →
      (r'.file.map ResultLine.seen).Perm (r.file.map (fun l => scaleSeen k c (ResultLine.seen l))) ∧ r'.selected = r.selected ∧ r'.unselected = r.unselected := by
  obtain ⟨h1, h2⟩ := relabel_sdmap h.relabelled hf hkf hkf' hc cfg hs st h0
  refine ⟨h1, fun r r' hr hr' => ?_⟩
  obtain ⟨a, b⟩ := h2 r r' hr hr'
  refine ⟨?_, b⟩
  have : r.file.map (fun l => relabelSeen id (fun _ => id) k c (ResultLine.seen l)) = r.file.map (fun l => scaleSeen k c (ResultLine.seen l)) := by
    refine List.map_congr_left (fun l hl => ?_)
    obtain ⟨X, q, g1, _, _, rfl⟩ := ((sdmap_lines hf hkf h0 hr).2 l).1 hl
    exact relabelSeen_id g1.1 g1.2.1 _ _ _ _ _
  rw [← this]
  exact a

/-- C98, SDMapStar with `num_subgroups = 0`: the same. -/
theorem C98_star (h : Copied k df df' π) (hf : NominalFrame df target) (hkf : KeysFaithful df target) (hkf' : KeysFaithful df' target) (hc : 0 < c) (cfg : SDMapStarConfig)
    (hn : cfg.num = 0) (hs : Scales k c cfg.measure cfg.extra) (st : StarState) (h0 : st.base.file = []) :
    ((∃ r, cfg.fit st df target = .ok r) ↔ ∃ r, ({ cfg with th := scaleTh k cfg.th, minQuality := c * cfg.minQuality } : SDMapStarConfig).fit st df' target = .ok r) ∧
    ∀ r r', cfg.fit st df target = .ok r → ({ cfg with th := scaleTh k cfg.th, minQuality := c * cfg.minQuality } : SDMapStarConfig).fit st df' target = .ok r' →
      (r'.base.file.map ResultLine.seen).Perm (r.base.file.map (fun l => scaleSeen k c (ResultLine.seen l))) ∧ r'.base.selected = r.base.selected ∧
      r'.base.unselected = r.base.unselected := by
  have hf' : NominalFrame df' target := relabel_nominal h.relabelled hf
  obtain ⟨a1, a2⟩ := C26 cfg hn df target hf hkf st
  obtain ⟨b1, b2⟩ := C26 { cfg with th := scaleTh k cfg.th, minQuality := c * cfg.minQuality } hn df' target hf' hkf' st
  obtain ⟨c1, c2⟩ := C98_sdmap h hf hkf hkf' hc cfg.toSDMapConfig hs st.base h0
  refine ⟨a1.trans (c1.trans b1.symm), fun r r' hr hr' => ?_⟩
  obtain ⟨s, hs⟩ := a1.1 ⟨r, hr⟩
  obtain ⟨s', hs'⟩ := b1.1 ⟨r', hr'⟩
  obtain ⟨_, _, e1, e2, e3⟩ := a2 r s hr hs
  obtain ⟨_, _, f1, f2, f3⟩ := b2 r' s' hr' hs'
  obtain ⟨g1, g2, g3⟩ := c2 s s' hs hs'
  exact ⟨(f1.map _).trans (g1.trans (e1.symm.map _)), by rw [f2, g2, e2], by rw [f3, g3, e3]⟩

section
variable (measure : Params → Except PyErr Rat) (minQ : Rat) (estimate : Params → Except PyErr Rat) (minE minE' : Rat) (x xo : Params) (s1 s2 : SortCriterion) (he : LookupOnly estimate)
include he

/-- C98, VLSD with an estimate that suits the measure and thresholds for it that are not above those of the quality: the same. -/
theorem C98_vlsd (h : Copied k df df' π) (hf : NominalFrame df target) (hc : 0 < c) (hsc : Scales k c measure (deleteSubgroupParameters x))
    (hs : Suits (VLSDConfig.new measure minQ estimate minE x xo s1 s2) df target)
    (hs' : Suits (VLSDConfig.new measure (c * minQ) estimate minE' x xo s1 s2) df' target) (hle : minE ≤ minQ) (hle' : minE' ≤ c * minQ) (st r r' : VLState Bits)
    (hr : (VLSDConfig.new measure minQ estimate minE x xo s1 s2).fit .bitsets st df target = .ok r)
    (hr' : (VLSDConfig.new measure (c * minQ) estimate minE' x xo s1 s2).fit .bitsets st df' target = .ok r') :
    (r'.file.map VLine.seen).Perm (r.file.map (fun l => scaleSeen k c (VLine.seen l))) ∧ r'.selected = r.selected := by
  obtain ⟨_, a⟩ := C29_bitsets measure minQ estimate minE x xo s1 s2 he df target hf st r hr
  obtain ⟨_, b⟩ := C29_bitsets measure (c * minQ) estimate minE' x xo s1 s2 he df' target (relabel_nominal h.relabelled hf) st r' hr'
  obtain ⟨g1, g2⟩ := relabel_vlsd (cfg := VLSDConfig.new measure minQ estimate minE x xo s1 s2) (cfg' := VLSDConfig.new measure (c * minQ) estimate minE' x xo s1 s2) h.relabelled hf hc rfl rfl rfl hsc hs hs' hle hle' a b
  refine ⟨?_, g2⟩
  have : r.file.map (fun l => relabelSeen id (fun _ => id) k c (VLine.seen l)) = r.file.map (fun l => scaleSeen k c (VLine.seen l)) := by
    refine List.map_congr_left (fun l hl => ?_)
    obtain ⟨X, q, g1, g2, _, _, _, hx⟩ := (vlsd_seen a hs.bounds hs.defined hle _).1 (List.mem_map_of_mem hl)
    rw [hx]
    exact relabelSeen_id g1 g2 _ _ _ _ _
  rw [← this]
  exact g1
end

/-- C98, BSD, CBSD and CPBSD with the minimum support multiplied by `k`: under the conditions of C53 for both, the best quality that is reported is multiplied by `c`. -/
theorem C98_bsd_best (h : Copied k df df' π) (hf : NominalFrame df target) (hc : 0 < c) (cfg cfg' : BSDConfig) (hcfg : cfg' = { cfg with minSupport := k * cfg.minSupport })
    (hs : Scales k c cfg.measure cfg.extra) (hn : 0 < cfg.num)
    (ht : TextsFaithful df target) (ha : BSDAbove cfg df target) (hb : BSDBounds cfg df target) (hm : cfg.variant = .bsd → BSDMonotone cfg df target)
    (ht' : TextsFaithful df' target) (ha' : BSDAbove cfg' df' target) (hb' : BSDBounds cfg' df' target) (hm' : cfg.variant = .bsd → BSDMonotone cfg' df' target)
    (r r' : BSDState) (hr : cfg.fit .fresh df target = .ok r) (hr' : cfg'.fit .fresh df' target = .ok r') :
    (∀ l ∈ r.file, ∃ l' ∈ r'.file, c * l.quality ≤ l'.quality) ∧ (∀ l' ∈ r'.file, ∃ l ∈ r.file, l'.quality ≤ c * l.quality) :=
  relabel_bsd h.relabelled hf hc cfg cfg' hcfg hs hn ht ha hb hm ht' ha' hb' hm' hr hr'
end

/-! ## the measures -/

/-- the additional parameters do not name a count (the constructors delete them) -/
def Spec.NoCounts (x : Params) : Prop := x.lookup kTp = none ∧ x.lookup kFp = none ∧ x.lookup kTP = none ∧ x.lookup kFP = none

theorem get_counts {x : Params} (h : NoCounts x) (a b c d : Rat) :
    getParam (paramsFor a b c d x) kTp = .ok a ∧ getParam (paramsFor a b c d x) kFp = .ok b ∧ getParam (paramsFor a b c d x) kTP = .ok c ∧ getParam (paramsFor a b c d x) kFP = .ok d := by
  obtain ⟨h1, h2, h3, h4⟩ := h
  unfold getParam paramsFor
  rw [lookup_update _ _ _ h1, lookup_update _ _ _ h2, lookup_update _ _ _ h3, lookup_update _ _ _ h4]
  exact ⟨rfl, rfl, rfl, rfl⟩

theorem pyDiv_scale {k : Rat} (hk : 0 < k) (a b : Rat) : pyDiv (k * a) (k * b) = pyDiv a b := by
  have : k ≠ 0 := ne_of_gt hk
  unfold pyDiv
  by_cases hb : b = 0
  · simp [hb]
  · rw [if_neg hb, if_neg (mul_ne_zero this hb), mul_div_mul_left _ _ this]

theorem map_one_mul (r : Except PyErr Rat) : r.map (1 * ·) = r := by cases r <;> simp [Except.map]

/-- C98: these measures do not change when all counts are multiplied (with the same exceptions). -/
theorem C98_measures {k : Nat} (hk : 0 < k) {x : Params} (hx : NoCounts x) (m : Measure)
    (hm : m ∈ [Measure.support, .coverage, .wracc, .absoluteWracc, .ppv, .npv, .sensitivity, .specificity, .f1, .irr, .youden]) : Scales k 1 m.compute x := by
  intro tp fp TP FP
  have hk' : (0 : Rat) < k := by exact_mod_cast hk
  rw [map_one_mul]
  obtain ⟨g1, g2, g3, g4⟩ := get_counts hx ((k * tp : Nat) : Rat) ((k * fp : Nat) : Rat) ((k * TP : Nat) : Rat) ((k * FP : Nat) : Rat)
  obtain ⟨f1, f2, f3, f4⟩ := get_counts hx (tp : Rat) fp TP FP
  generalize paramsFor ((k * tp : Nat) : Rat) ((k * fp : Nat) : Rat) ((k * TP : Nat) : Rat) ((k * FP : Nat) : Rat) x = d at g1 g2 g3 g4 ⊢
  generalize paramsFor (tp : Rat) fp TP FP x = e at f1 f2 f3 f4 ⊢
  have s1 : ∀ a b c d : Rat, k * a - k * b + k * c - k * d = k * (a - b + c - d) := by intros; ring
  have s2 : ∀ a b c : Rat, k * a + k * b + k * c = k * (a + b + c) := by intros; ring
  simp only [List.mem_cons, List.not_mem_nil, or_false] at hm
  set_option linter.unusedSimpArgs false in
  rcases hm with rfl | rfl | rfl | rfl | rfl | rfl | rfl | rfl | rfl | rfl | rfl <;>
    simp only [Measure.compute, Quality.support, Quality.coverage, Quality.wracc, Quality.absoluteWracc, Quality.ppv, Quality.npv, Quality.sensitivity, Quality.specificity, Quality.f1,
      Quality.irr, Quality.youden, g1, g2, g3, g4, f1, f2, f3, f4, bind, Except.bind, Nat.cast_mul, s1, s2, ← mul_add, ← mul_sub, pyDiv_scale hk', mul_left_comm (2 : Rat)]

/-- C98: these are multiplied by the same factor. -/
theorem C98_linear {k : Nat} (hk : 0 < k) {x : Params} (hx : NoCounts x) (m : Measure)
    (hm : m ∈ [Measure.piatetskyShapiro, .psOE1, .psOE2, .wraccOE1]) : Scales k k m.compute x := by
  intro tp fp TP FP
  have hk' : (0 : Rat) < k := by exact_mod_cast hk
  obtain ⟨g1, g2, g3, g4⟩ := get_counts hx ((k * tp : Nat) : Rat) ((k * fp : Nat) : Rat) ((k * TP : Nat) : Rat) ((k * FP : Nat) : Rat)
  obtain ⟨f1, f2, f3, f4⟩ := get_counts hx (tp : Rat) fp TP FP
  generalize paramsFor ((k * tp : Nat) : Rat) ((k * fp : Nat) : Rat) ((k * TP : Nat) : Rat) ((k * FP : Nat) : Rat) x = d at g1 g2 g3 g4 ⊢
  generalize paramsFor (tp : Rat) fp TP FP x = e at f1 f2 f3 f4 ⊢
  have s1 : ∀ a b : Rat, pyDiv (k * a * (k * a)) (k * b) = (pyDiv (a * a) b).map ((k : Rat) * ·) := by
    intro a b
    rw [mul_assoc, pyDiv_scale hk']
    unfold pyDiv
    by_cases hb : b = 0
    · simp [hb, Except.map]
    · rw [if_neg hb, if_neg hb]
      simp only [Except.map, Except.ok.injEq]
      field_simp
  simp only [List.mem_cons, List.not_mem_nil, or_false] at hm
  rcases hm with rfl | rfl | rfl | rfl <;>
    simp only [Measure.compute, Quality.piatetskyShapiro, Quality.psOE1, Quality.psOE2, Quality.wraccOE1, g1, g2, g3, g4, f1, f2, f3, f4, bind, Except.bind, Nat.cast_mul, ← mul_add,
      pyDiv_scale hk', s1]
  · cases pyDiv (tp : Rat) (tp + fp) <;> simp only [Except.map]
    cases pyDiv (TP : Rat) (TP + FP) <;> simp [pure, Except.pure, mul_assoc]
  · cases pyDiv (TP : Rat) (TP + FP) <;> simp [pure, Except.pure, Except.map, mul_assoc]
  · cases pyDiv (TP : Rat) (TP + FP) <;> simp [pure, Except.pure, Except.map, mul_assoc]
  · cases pyDiv ((tp : Rat) * tp) (tp + fp) <;> simp only [Except.map]
    cases pyDiv (TP : Rat) (TP + FP) <;> simp [pure, Except.pure, mul_assoc]

/-- C98: `Qg` has no such factor (here with `g = 1`). -/
theorem C98_qg_fails : ¬ ∃ c, Scales 2 c Measure.qg.compute [(kG, 1)] := by
  rintro ⟨c, h⟩
  have h1 := h 1 0 1 1
  have h2 := h 1 1 1 1
  have e1 : Measure.qg.compute (paramsFor ((2 * 1 : Nat) : Rat) ((2 * 0 : Nat) : Rat) ((2 * 1 : Nat) : Rat) ((2 * 1 : Nat) : Rat) [(kG, 1)]) = .ok 2 := by decide +kernel
  have e2 : Measure.qg.compute (paramsFor ((1 : Nat) : Rat) ((0 : Nat) : Rat) ((1 : Nat) : Rat) ((1 : Nat) : Rat) [(kG, 1)]) = .ok 1 := by decide +kernel
  have e3 : Measure.qg.compute (paramsFor ((2 * 1 : Nat) : Rat) ((2 * 1 : Nat) : Rat) ((2 * 1 : Nat) : Rat) ((2 * 1 : Nat) : Rat) [(kG, 1)]) = .ok (2/3) := by decide +kernel
  have e4 : Measure.qg.compute (paramsFor ((1 : Nat) : Rat) ((1 : Nat) : Rat) ((1 : Nat) : Rat) ((1 : Nat) : Rat) [(kG, 1)]) = .ok (1/2) := by decide +kernel
  rw [e1, e2] at h1
  rw [e3, e4] at h2
  simp only [Except.map, Except.ok.injEq] at h1 h2
  linarith

/-! ## examples -/

/-- columns `a` and `b` exchanged, and the values `p` and `q` -/
def Spec.swapNames (s : Str) : Str := Equiv.swap c!"a" c!"b" s
def Spec.swapValues (_ s : Str) : Str := Equiv.swap c!"p" c!"q" s

theorem swap_injective : Function.Injective swapNames ∧ ∀ a, Function.Injective (swapValues a) :=
  ⟨(Equiv.swap _ _).injective, fun _ => (Equiv.swap _ _).injective⟩

theorem tieSwapped_eq : renameFrame swapNames swapValues tieFrame =
    ⟨3, [(c!"b", [.str c!"x", .str c!"y", .str c!"y"]), (c!"a", [.str c!"p", .str c!"q", .str c!"p"]), (c!"t", [.str c!"1", .str c!"1", .str c!"0"])]⟩ := by
  have : ∀ a b : Frame, a.nrows = b.nrows → a.cols = b.cols → a = b := by
    rintro ⟨_, _⟩ ⟨_, _⟩ h1 h2
    cases h1; cases h2; rfl
  exact this _ _ rfl (by decide +kernel)

theorem tieSwapped_keys : KeysFaithful (renameFrame swapNames swapValues tieFrame) (renameTarget swapNames swapValues (c!"t", c!"1")) := by
  refine keysFaithful_of_no_quotes (relabel_nominal (renameFrame_relabelled swap_injective.1 swap_injective.2 tieFrame_ok) tieFrame_ok) ?_
  rw [tieSwapped_eq]
  intro c hc
  simp at hc
  rcases hc with rfl | rfl | rfl <;> decide +kernel

/-- the lines of SDMap with the names exchanged: the selectors of a pattern are in the order of the new names -/
example : tieLines (1/9) tieFrame = some [c!"[a = 'x']", c!"[a = 'x', b = 'q']", c!"[b = 'p']", c!"[a = 'y', b = 'p']"] ∧
    (tieLines (1/9) (renameFrame swapNames swapValues tieFrame)).map (·.length) = some 4 ∧
    renamePattern swapNames swapValues ⟨[⟨c!"a", .equal, .str c!"x"⟩, ⟨c!"b", .equal, .str c!"q"⟩]⟩ = ⟨[⟨c!"a", .equal, .str c!"p"⟩, ⟨c!"b", .equal, .str c!"x"⟩]⟩ := by
  refine ⟨by decide +kernel, by decide +kernel, by decide +kernel⟩

/-- every row of `tieFrame` twice -/
def Spec.tieTwice : Frame := ⟨6, [(c!"a", [.str c!"x", .str c!"x", .str c!"y", .str c!"y", .str c!"y", .str c!"y"]),
  (c!"b", [.str c!"q", .str c!"q", .str c!"p", .str c!"p", .str c!"q", .str c!"q"]), (c!"t", [.str c!"1", .str c!"1", .str c!"1", .str c!"1", .str c!"0", .str c!"0"])]⟩

theorem tieTwice_copied : Copied 2 tieFrame tieTwice [0, 0, 1, 1, 2, 2] := by
  refine ⟨by decide, by decide +kernel, rfl, by decide +kernel, fun name col hl => ?_⟩
  have hm := mem_of_lookup hl
  simp only [tieFrame, List.mem_cons, Prod.mk.injEq, List.not_mem_nil, or_false] at hm
  rcases hm with ⟨rfl, rfl⟩ | ⟨rfl, rfl⟩ | ⟨rfl, rfl⟩
  · exact ⟨[.str c!"x", .str c!"x", .str c!"y", .str c!"y", .str c!"y", .str c!"y"], by decide +kernel, by decide +kernel⟩
  · exact ⟨[.str c!"q", .str c!"q", .str c!"p", .str c!"p", .str c!"q", .str c!"q"], by decide +kernel, by decide +kernel⟩
  · exact ⟨[.str c!"1", .str c!"1", .str c!"1", .str c!"1", .str c!"0", .str c!"0"], by decide +kernel, by decide +kernel⟩

/-- SDMap with WRAcc on both: the same descriptions and qualities, the counts doubled -/
example : (match (⟨Quality.wracc, 1/9, .tpFp 1 0, []⟩ : SDMapConfig).fit ⟨0, 0, [], []⟩ tieFrame (c!"t", c!"1") with | .ok s => demoSeen (s.file.map ResultLine.seen) | .error _ => []) =
      [(c!"[a = 'x']", 1 / 9, 1, 0), (c!"[a = 'x', b = 'q']", 1 / 9, 1, 0), (c!"[b = 'p']", 1 / 9, 1, 0), (c!"[a = 'y', b = 'p']", 1 / 9, 1, 0)] ∧
    (match (⟨Quality.wracc, 1/9, .tpFp 2 0, []⟩ : SDMapConfig).fit ⟨0, 0, [], []⟩ tieTwice (c!"t", c!"1") with | .ok s => demoSeen (s.file.map ResultLine.seen) | .error _ => []) =
      [(c!"[a = 'x']", 1 / 9, 2, 0), (c!"[a = 'x', b = 'q']", 1 / 9, 2, 0), (c!"[b = 'p']", 1 / 9, 2, 0), (c!"[a = 'y', b = 'p']", 1 / 9, 2, 0)] := by
  refine ⟨by decide +kernel, by decide +kernel⟩

example : NoCounts [(kG, 3)] ∧ NoCounts [] := ⟨⟨by decide +kernel, by decide +kernel, by decide +kernel, by decide +kernel⟩, ⟨rfl, rfl, rfl, rfl⟩⟩
end Verif
