import Verif.Model.VLSD
import Verif.Lemmas.Params
import Verif.Lemmas.SDMap
import Verif.Props.VerticalList
/-! Lemmas for VLSD: what the two implementations of vertical lists do, and the search. -/
namespace Verif
open Spec
section
open Classical

/-- number of rows `i < n` with `A i` -/
noncomputable def cnt (n : Nat) (A : Nat → Prop) : Nat := ((List.range n).filter (fun i => decide (A i))).length

/-- what VLSD needs to know about an implementation -/
structure VLImpl.Laws {Seq : Type} (I : VLImpl Seq) where
  /-- the sequence stands for the rows `i < n` with `A i` -/
  den : Nat → Seq → (Nat → Prop) → Prop
  congr : ∀ n s A B, (∀ i, i < n → (A i ↔ B i)) → den n s A → den n s B
  new : ∀ sels t f n q, t.Nodup → f.Nodup → (∀ i ∈ t, i < n) → (∀ i ∈ f, i < n) →
    ∃ v, I.new sels t f n q = .ok v ∧ v.sels = sels ∧ v.rows = n ∧ v.quality = q ∧ v.tp = t.length ∧ v.fp = f.length ∧
      den n v.tpSeq (fun i => i ∈ t) ∧ den n v.fpSeq (fun i => i ∈ f)
  join : ∀ quality d x y n A B C D s, x.rows = n → y.rows = n → den n x.tpSeq A → den n y.tpSeq B → den n x.fpSeq C → den n y.fpSeq D →
    y.sels.getLast? = some s →
    (cnt n (fun i => A i ∧ B i) + cnt n (fun i => C i ∧ D i) = 0 → I.join quality d true x y = .ok none) ∧
    (0 < cnt n (fun i => A i ∧ B i) + cnt n (fun i => C i ∧ D i) →
      (∀ e, quality (vlParams d (cnt n (fun i => A i ∧ B i)) (cnt n (fun i => C i ∧ D i))) = .error e → I.join quality d true x y = .error e) ∧
      (∀ q, quality (vlParams d (cnt n (fun i => A i ∧ B i)) (cnt n (fun i => C i ∧ D i))) = .ok q →
        ∃ v, I.join quality d true x y = .ok (some v) ∧ v.sels = x.sels ++ [s] ∧ v.rows = n ∧ v.quality = q ∧
          v.tp = cnt n (fun i => A i ∧ B i) ∧ v.fp = cnt n (fun i => C i ∧ D i) ∧
          den n v.tpSeq (fun i => A i ∧ B i) ∧ den n v.fpSeq (fun i => C i ∧ D i)))

theorem length_eq_cnt {n : Nat} {A : Nat → Prop} {l : List Nat} (hl : l.Nodup) (h : ∀ i, i ∈ l ↔ i < n ∧ A i) : l.length = cnt n A := by
  unfold cnt
  apply (List.perm_ext_iff_of_nodup hl (List.nodup_range.filter _) |>.2 _).length_eq
  intro i
  rw [h, List.mem_filter, List.mem_range, decide_eq_true_iff]

theorem ones_eq_cnt {n : Nat} {A : Nat → Prop} {b : Bits} (h : ∀ i, b.get i = true ↔ i < n ∧ A i) : b.ones = cnt n A := by
  unfold cnt
  apply Bits.ones_eq_length _ _ (List.nodup_range.filter _)
  intro i
  rw [h, List.mem_filter, List.mem_range, decide_eq_true_iff]

noncomputable def lawsSets : VLImpl.sets.Laws where
  den n s A := s.Nodup ∧ ∀ i, i ∈ s ↔ i < n ∧ A i
  congr n s A B h := by
    rintro ⟨h1, h2⟩
    refine ⟨h1, fun i => ?_⟩
    rw [h2]
    exact and_congr_right (fun hi => h i hi)
  new sels t f n q ht hf htn hfn := by
    refine ⟨_, rfl, rfl, rfl, rfl, rfl, rfl, ⟨?_, ?_⟩, ⟨?_, ?_⟩⟩
    · exact List.nodup_dedup _
    · intro i; simp only [VListSet.toSet, List.mem_dedup]; exact ⟨fun h => ⟨htn i h, h⟩, fun h => h.2⟩
    · exact List.nodup_dedup _
    · intro i; simp only [VListSet.toSet, List.mem_dedup]; exact ⟨fun h => ⟨hfn i h, h⟩, fun h => h.2⟩
  join quality d x y n A B C D s hx hy hA hB hC hD hs := by
    have e1 : ∀ i, i ∈ VListSet.inter x.tpSeq y.tpSeq ↔ i < n ∧ (A i ∧ B i) := by
      intro i; rw [inter_mem, hA.2, hB.2]; tauto
    have e2 : ∀ i, i ∈ VListSet.inter x.fpSeq y.fpSeq ↔ i < n ∧ (C i ∧ D i) := by
      intro i; rw [inter_mem, hC.2, hD.2]; tauto
    have n1 : (VListSet.inter x.tpSeq y.tpSeq).Nodup := hA.1.filter _
    have n2 : (VListSet.inter x.fpSeq y.fpSeq).Nodup := hC.1.filter _
    have l1 := length_eq_cnt n1 e1
    have l2 := length_eq_cnt n2 e2
    simp only [VLImpl.sets]
    unfold VListSet.join
    rw [if_neg (by rw [hx, hy]; simp)]
    simp only [l1, l2, hs, Bool.not_true, Bool.false_or]
    refine ⟨fun h0 => ?_, fun h0 => ⟨fun e he => ?_, fun q hq => ?_⟩⟩
    · rw [if_neg (by simp [h0])]
    · rw [if_pos (by simpa using h0), he]
    · rw [if_pos (by simpa using h0), hq]
      exact ⟨_, rfl, rfl, hx, rfl, rfl, rfl, ⟨n1, e1⟩, ⟨n2, e2⟩⟩

theorem get_replicate_false (n i : Nat) : Bits.get (List.replicate n false) i = false := by
  simp only [Bits.get, List.getD_eq_getElem?_getD, List.getElem?_replicate]
  split <;> rfl

noncomputable def lawsBits : VLImpl.bitsets.Laws where
  den n s A := s.length = n ∧ ∀ i, s.get i = true ↔ i < n ∧ A i
  congr n s A B h := by
    rintro ⟨h1, h2⟩
    refine ⟨h1, fun i => ?_⟩
    rw [h2]
    exact and_congr_right (fun hi => h i hi)
  new sels t f n q ht hf htn hfn := by
    obtain ⟨c, c1, c2, c3⟩ := setBits_spec (List.replicate n false) t (by simpa using htn)
    obtain ⟨c', c1', c2', c3'⟩ := setBits_spec (List.replicate n false) f (by simpa using hfn)
    refine ⟨⟨sels, c, c', t.length, f.length, n, q⟩, by simp only [VLImpl.bitsets, VListBits.new, c1, c1'], rfl, rfl, rfl, rfl, rfl,
      ⟨by simpa using c2, ?_⟩, ⟨by simpa using c2', ?_⟩⟩
    · intro i; rw [c3, get_replicate_false]; simp; exact fun h => htn i h
    · intro i; rw [c3', get_replicate_false]; simp; exact fun h => hfn i h
  join quality d x y n A B C D s hx hy hA hB hC hD hs := by
    have e1 : ∀ i, (x.tpSeq.and y.tpSeq).get i = true ↔ i < n ∧ (A i ∧ B i) := by
      intro i; rw [Bits.get_and, Bool.and_eq_true, hA.2, hB.2]; tauto
    have e2 : ∀ i, (x.fpSeq.and y.fpSeq).get i = true ↔ i < n ∧ (C i ∧ D i) := by
      intro i; rw [Bits.get_and, Bool.and_eq_true, hC.2, hD.2]; tauto
    have l1 := ones_eq_cnt e1
    have l2 := ones_eq_cnt e2
    have n1 : (x.tpSeq.and y.tpSeq).length = n := by rw [Bits.len_and, hA.1, hB.1]; simp
    have n2 : (x.fpSeq.and y.fpSeq).length = n := by rw [Bits.len_and, hC.1, hD.1]; simp
    simp only [VLImpl.bitsets]
    unfold VListBits.join
    rw [if_neg (by rw [hx, hy]; simp)]
    simp only [l1, l2, hs, Bool.not_true, Bool.false_or]
    refine ⟨fun h0 => ?_, fun h0 => ⟨fun e he => ?_, fun q hq => ?_⟩⟩
    · rw [if_neg (by simp [h0])]
    · rw [if_pos (by simpa using h0), he]
    · rw [if_pos (by simpa using h0), hq]
      exact ⟨_, rfl, rfl, hx, rfl, rfl, rfl, ⟨n1, e1⟩, ⟨n2, e2⟩⟩

/-- a measure reads its dictionary only through look-ups: the order of the keys does not matter -/
def Spec.LookupOnly (f : Params → Except PyErr Rat) : Prop := ∀ d e : Params, (∀ k, d.lookup k = e.lookup k) → f d = f e

/-- the optimistic estimate of a description in the data -/
noncomputable def Spec.estimateOf (cfg : VLSDConfig) (df : Frame) (target : Str × Str) (X : List Selector) : Except PyErr Rat :=
  cfg.estimate (paramsFor (tpOf df target X) (fpOf df target X) (tpOf df target []) (fpOf df target []) cfg.extraOE)

theorem cnt_congr {n : Nat} {A B : Nat → Prop} (h : ∀ i, i < n → (A i ↔ B i)) : cnt n A = cnt n B := by
  unfold cnt
  congr 1
  apply List.filter_congr
  intro i hi
  rw [decide_eq_decide]
  exact h i (List.mem_range.1 hi)

theorem cnt_pos {n : Nat} {A : Nat → Prop} : 0 < cnt n A ↔ ∃ i, i < n ∧ A i := by
  unfold cnt
  rw [List.length_pos_iff_exists_mem]
  simp [List.mem_filter, List.mem_range]

theorem tpOf_cnt (df : Frame) (target : Str × Str) (X : List Selector) :
    tpOf df target X = cnt df.nrows (fun i => Covers df X i ∧ MatchesAt df (targetSel target) i) := by
  unfold tpOf cnt
  congr 1
  apply List.filter_congr
  intro i _
  rw [decide_eq_decide]

theorem fpOf_cnt (df : Frame) (target : Str × Str) (X : List Selector) :
    fpOf df target X = cnt df.nrows (fun i => Covers df X i ∧ ¬ MatchesAt df (targetSel target) i) := by
  unfold fpOf cnt
  congr 1
  apply List.filter_congr
  intro i _
  rw [decide_eq_decide]

theorem occurs_iff {df : Frame} {target : Str × Str} {X : List Selector} : 0 < tpOf df target X + fpOf df target X ↔ OccursIn df X := by
  have h1 : tpOf df target X = cnt df.nrows (fun i => Covers df X i ∧ MatchesAt df (targetSel target) i) := tpOf_cnt _ _ _
  have h2 : fpOf df target X = cnt df.nrows (fun i => Covers df X i ∧ ¬ MatchesAt df (targetSel target) i) := fpOf_cnt _ _ _
  constructor
  · intro h
    have : 0 < tpOf df target X ∨ 0 < fpOf df target X := by omega
    rcases this with h | h
    · rw [h1, cnt_pos] at h; obtain ⟨i, hi, hc, _⟩ := h; exact ⟨i, hi, hc⟩
    · rw [h2, cnt_pos] at h; obtain ⟨i, hi, hc, _⟩ := h; exact ⟨i, hi, hc⟩
  · rintro ⟨i, hi, hc⟩
    by_cases hm : MatchesAt df (targetSel target) i
    · have : 0 < tpOf df target X := by rw [h1, cnt_pos]; exact ⟨i, hi, hc, hm⟩
      omega
    · have : 0 < fpOf df target X := by rw [h2, cnt_pos]; exact ⟨i, hi, hc, hm⟩
      omega

theorem estimateOf_congr {cfg : VLSDConfig} {df : Frame} {target : Str × Str} {X Y : List Selector} (h : ∀ s, s ∈ X ↔ s ∈ Y) :
    estimateOf cfg df target X = estimateOf cfg df target Y := by
  unfold estimateOf; rw [tpOf_congr h, fpOf_congr h]

theorem occursIn_mono {df : Frame} {X Y : List Selector} (h : ∀ s ∈ X, s ∈ Y) (ho : OccursIn df Y) : OccursIn df X := by
  obtain ⟨i, hi, hc⟩ := ho
  exact ⟨i, hi, fun s hs => hc s (h s hs)⟩

variable {Seq : Type} {I : VLImpl Seq}

/-- the vertical list is that of its selectors, it covers some row and its estimate reaches the threshold -/
structure Repr (L : I.Laws) (cfg : VLSDConfig) (df : Frame) (target : Str × Str) (v : VList Selector Seq) : Prop where
  rows : v.rows = df.nrows
  tp : v.tp = tpOf df target v.sels
  fp : v.fp = fpOf df target v.sels
  tpSeq : L.den df.nrows v.tpSeq (fun i => Covers df v.sels i ∧ MatchesAt df (targetSel target) i)
  fpSeq : L.den df.nrows v.fpSeq (fun i => Covers df v.sels i ∧ ¬ MatchesAt df (targetSel target) i)
  est : estimateOf cfg df target v.sels = .ok v.quality
  occurs : OccursIn df v.sels
  reach : cfg.minEstimate ≤ v.quality

/-- hypotheses on the configuration -/
structure CfgOK (cfg : VLSDConfig) : Prop where
  ext : LookupOnly cfg.estimate
  noTp : cfg.extraOE.lookup kTp = none
  noFp : cfg.extraOE.lookup kFp = none

/-- the description occurs and its estimate reaches the threshold -/
def Reaches (cfg : VLSDConfig) (df : Frame) (target : Str × Str) (X : List Selector) : Prop :=
  OccursIn df X ∧ ∃ q, estimateOf cfg df target X = .ok q ∧ cfg.minEstimate ≤ q

theorem reaches_congr {cfg : VLSDConfig} {df : Frame} {target : Str × Str} {X Y : List Selector} (h : ∀ s, s ∈ X ↔ s ∈ Y) :
    Reaches cfg df target X ↔ Reaches cfg df target Y := by
  unfold Reaches
  rw [estimateOf_congr h]
  exact and_congr_left (fun _ => ⟨occursIn_mono (fun s hs => (h s).2 hs), occursIn_mono (fun s hs => (h s).1 hs)⟩)

theorem join_covers {df : Frame} {pre : List Selector} {a b : Selector} (i : Nat) :
    (Covers df (pre ++ [a]) i ∧ Covers df (pre ++ [b]) i) ↔ Covers df (pre ++ [a] ++ [b]) i := by
  simp only [Covers, List.mem_append, List.mem_singleton]
  constructor
  · rintro ⟨h1, h2⟩ s ((h | h) | h)
    · exact h1 s (.inl h)
    · exact h1 s (.inr h)
    · exact h2 s (.inr h)
  · intro h
    refine ⟨fun s hs => h s (.inl hs), fun s hs => h s ?_⟩
    rcases hs with h | h
    · exact .inl (.inl h)
    · exact .inr h

theorem goodJoin_spec {L : I.Laws} {cfg : VLSDConfig} {df : Frame} {target : Str × Str} (hc : CfgOK cfg) {x y : VList Selector Seq}
    (hx : Repr L cfg df target x) (hy : Repr L cfg df target y) {pre : List Selector} {a b : Selector} (ha : x.sels = pre ++ [a])
    (hb : y.sels = pre ++ [b]) :
    (∀ v, cfg.goodJoin I (tpOf df target []) (fpOf df target []) x y = .ok (some v) → Repr L cfg df target v ∧ v.sels = pre ++ [a] ++ [b]) ∧
    (cfg.goodJoin I (tpOf df target []) (fpOf df target []) x y = .ok none → ¬ Reaches cfg df target (pre ++ [a] ++ [b])) ∧
    (∀ e, cfg.goodJoin I (tpOf df target []) (fpOf df target []) x y = .error e →
      OccursIn df (pre ++ [a] ++ [b]) ∧ estimateOf cfg df target (pre ++ [a] ++ [b]) = .error e) := by
  have c1 : cnt df.nrows (fun i => (Covers df x.sels i ∧ MatchesAt df (targetSel target) i) ∧ (Covers df y.sels i ∧ MatchesAt df (targetSel target) i)) =
      tpOf df target (pre ++ [a] ++ [b]) := by
    rw [tpOf_cnt]
    apply cnt_congr
    intro i _
    rw [← join_covers, ha, hb]; tauto
  have c2 : cnt df.nrows (fun i => (Covers df x.sels i ∧ ¬ MatchesAt df (targetSel target) i) ∧ (Covers df y.sels i ∧ ¬ MatchesAt df (targetSel target) i)) =
      fpOf df target (pre ++ [a] ++ [b]) := by
    rw [fpOf_cnt]
    apply cnt_congr
    intro i _
    rw [← join_covers, ha, hb]; tauto
  obtain ⟨j0, j1⟩ := L.join cfg.estimate (cfg.joinParams (tpOf df target []) (fpOf df target [])) x y df.nrows _ _ _ _ b hx.rows hy.rows
    hx.tpSeq hy.tpSeq hx.fpSeq hy.fpSeq (by rw [hb]; simp)
  rw [c1, c2] at j0 j1
  have hest : cfg.estimate (vlParams (cfg.joinParams (tpOf df target []) (fpOf df target [])) (tpOf df target (pre ++ [a] ++ [b]))
      (fpOf df target (pre ++ [a] ++ [b]))) = estimateOf cfg df target (pre ++ [a] ++ [b]) := by
    apply hc.ext
    intro k
    exact lookup_vlParams _ _ _ _ _ hc.noTp hc.noFp k
  rw [hest] at j1
  unfold VLSDConfig.goodJoin
  by_cases h0 : tpOf df target (pre ++ [a] ++ [b]) + fpOf df target (pre ++ [a] ++ [b]) = 0
  · rw [j0 h0]
    refine ⟨fun v h => by simp at h, fun _ hr => ?_, fun e h => by simp at h⟩
    have := (occurs_iff (target := target)).2 hr.1
    omega
  · have hpos : 0 < tpOf df target (pre ++ [a] ++ [b]) + fpOf df target (pre ++ [a] ++ [b]) := by omega
    obtain ⟨j2, j3⟩ := j1 hpos
    have hocc := occurs_iff.1 hpos
    cases hq : estimateOf cfg df target (pre ++ [a] ++ [b]) with
    | error e =>
      rw [j2 e hq]
      refine ⟨fun v h => by simp at h, fun h => by simp at h, fun e' h => ⟨hocc, ?_⟩⟩
      simpa using h
    | ok q =>
      obtain ⟨v, v1, v2, v3, v4, v5, v6, v7, v8⟩ := j3 q hq
      rw [v1]
      simp only
      have hvs : v.sels = pre ++ [a] ++ [b] := by rw [v2, ha]
      by_cases hge : v.quality ≥ cfg.minEstimate
      · rw [if_pos hge]
        refine ⟨fun w h => ?_, fun h => by simp at h, fun e' h => by simp at h⟩
        simp only [Except.ok.injEq, Option.some.injEq] at h
        subst h
        refine ⟨⟨v3, by rw [v5, hvs], by rw [v6, hvs], ?_, ?_, by rw [hvs, hq, v4], by rw [hvs]; exact hocc, hge⟩, hvs⟩
        · refine L.congr _ _ _ _ ?_ v7
          intro i _
          rw [hvs, ← join_covers, ha, hb]; tauto
        · refine L.congr _ _ _ _ ?_ v8
          intro i _
          rw [hvs, ← join_covers, ha, hb]; tauto
      · rw [if_neg hge]
        refine ⟨fun w h => by simp at h, fun _ hr => ?_, fun e' h => by simp at h⟩
        obtain ⟨_, q', hq', hle⟩ := hr
        rw [hq] at hq'
        cases hq'
        rw [v4] at hge
        exact hge hle

/-- the last selector -/
def lst (v : VList Selector Seq) : Selector := v.sels.getLast?.getD ⟨[], .equal, .str []⟩

theorem lst_eq {v : VList Selector Seq} {pre : List Selector} {a : Selector} (h : v.sels = pre ++ [a]) : lst v = a := by
  unfold lst; rw [h]; simp

/-- lists that share all their selectors but the last -/
def Level (L : I.Laws) (cfg : VLSDConfig) (df : Frame) (target : Str × Str) (pre : List Selector) (P : List (VList Selector Seq)) : Prop :=
  ∀ v ∈ P, Repr L cfg df target v ∧ v.sels = pre ++ [lst v]

/-- every sub-description reaches the threshold -/
def AllReach (cfg : VLSDConfig) (df : Frame) (target : Str × Str) (X : List Selector) : Prop :=
  ∀ Y, Y ≠ [] → (∀ s ∈ Y, s ∈ X) → Reaches cfg df target Y

theorem AllReach.mono {cfg : VLSDConfig} {df : Frame} {target : Str × Str} {X Y : List Selector} (h : AllReach cfg df target X)
    (hs : ∀ s ∈ Y, s ∈ X) : AllReach cfg df target Y := fun Z hZ hZs => h Z hZ (fun s hss => hs s (hZs s hss))

/-- no exception can come from the measures -/
def NoErr (L : I.Laws) (cfg : VLSDConfig) (df : Frame) (target : Str × Str) : Prop :=
  (∀ X, OccursIn df X → ∃ q, estimateOf cfg df target X = .ok q) ∧
  (∀ (st : VLState Seq) v, Repr L cfg df target v → ∃ st', cfg.handle target (tpOf df target []) (fpOf df target []) st v = .ok st')

def MatrixFull (cfg : VLSDConfig) (df : Frame) (target : Str × Str) (base : List Selector) (M : VMatrix Seq) : Prop :=
  ∀ a ∈ base, ∀ b ∈ base, a ≠ b → Reaches cfg df target [a, b] → ∃ m, M.query a b = some m ∧ cfg.minEstimate ≤ m.quality

theorem joinRight_spec {L : I.Laws} {cfg : VLSDConfig} {df : Frame} {target : Str × Str} (hc : CfgOK cfg) {M : VMatrix Seq}
    {base : List Selector} (hM : MatrixFull cfg df target base M) {x : VList Selector Seq}
    (hx : Repr L cfg df target x) {pre : List Selector} {a : Selector} (ha : x.sels = pre ++ [a]) (hab : a ∈ base)
    (ys : List (VList Selector Seq)) (hys : Level L cfg df target pre ys) (hyb : ∀ v ∈ ys, lst v ∈ base) (hya : ∀ v ∈ ys, lst v ≠ a)
    (st : VLState Seq) :
    (∀ st' V, VLSDConfig.joinRight I cfg target (tpOf df target []) (fpOf df target []) M x ys st = .ok (st', V) →
      Level L cfg df target (pre ++ [a]) V ∧ (V.map lst).Sublist (ys.map lst) ∧
      V.foldlM (cfg.handle target (tpOf df target []) (fpOf df target [])) st = .ok st' ∧
      ∀ b ∈ ys.map lst, AllReach cfg df target (pre ++ [a] ++ [b]) → b ∈ V.map lst) ∧
    (NoErr L cfg df target → ∃ r, VLSDConfig.joinRight I cfg target (tpOf df target []) (fpOf df target []) M x ys st = .ok r) := by
  induction ys generalizing st with
  | nil =>
    refine ⟨?_, fun _ => ⟨_, rfl⟩⟩
    intro st' V h
    simp only [VLSDConfig.joinRight, Except.ok.injEq, Prod.mk.injEq] at h
    obtain ⟨rfl, rfl⟩ := h
    exact ⟨fun v hv => by simp at hv, by simp, rfl, by simp⟩
  | cons y ys ih =>
    have ih := ih (fun v hv => hys v (by simp [hv])) (fun v hv => hyb v (by simp [hv])) (fun v hv => hya v (by simp [hv]))
    obtain ⟨hy, hb⟩ := hys y (by simp)
    have hne := hya y (by simp)
    have hbase := hyb y (by simp)
    generalize lst y = b at hb hne hbase
    have hl : lst y = b := lst_eq hb
    have hxl : x.sels.getLast? = some a := by rw [ha]; simp
    have hyl : y.sels.getLast? = some b := by rw [hb]; simp
    obtain ⟨g1, g2, g3⟩ := goodJoin_spec hc hx hy ha hb
    -- the case in which nothing is added
    have skip : ∀ (h0 : ¬ AllReach cfg df target (pre ++ [a] ++ [b])) (R : Except PyErr (VLState Seq × List (VList Selector Seq)))
        (hR : R = VLSDConfig.joinRight I cfg target (tpOf df target []) (fpOf df target []) M x ys st),
        (∀ st' V, R = .ok (st', V) →
          Level L cfg df target (pre ++ [a]) V ∧ (V.map lst).Sublist ((y :: ys).map lst) ∧
          V.foldlM (cfg.handle target (tpOf df target []) (fpOf df target [])) st = .ok st' ∧
          ∀ b ∈ (y :: ys).map lst, AllReach cfg df target (pre ++ [a] ++ [b]) → b ∈ V.map lst) ∧
        (NoErr L cfg df target → ∃ r, R = .ok r) := by
      intro h0 R hR
      subst hR
      refine ⟨?_, (ih st).2⟩
      intro st' V h
      obtain ⟨i1, i2, i3, i4⟩ := (ih st).1 st' V h
      refine ⟨i1, by rw [List.map_cons]; exact i2.trans (List.sublist_cons_self _ _), i3, ?_⟩
      intro b' hb' hall
      rw [List.map_cons, List.mem_cons] at hb'
      rcases hb' with rfl | hb'
      · rw [hl] at hall; exact absurd hall h0
      · exact i4 b' hb' hall
    unfold VLSDConfig.joinRight
    rw [hxl, hyl]
    simp only
    cases hq : M.query a b with
    | none =>
      simp only
      apply skip _ _ rfl
      intro hall
      obtain ⟨m, hm, _⟩ := hM a hab b hbase (Ne.symm hne) (hall [a, b] (by simp) (by simp))
      rw [hq] at hm; cases hm
    | some m =>
      simp only
      by_cases hmq : m.quality ≥ cfg.minEstimate
      swap
      · rw [if_neg hmq]
        apply skip _ _ rfl
        intro hall
        obtain ⟨m', hm, hm2⟩ := hM a hab b hbase (Ne.symm hne) (hall [a, b] (by simp) (by simp))
        rw [hq] at hm; cases hm
        exact hmq hm2
      rw [if_pos hmq]
      cases hj : cfg.goodJoin I (tpOf df target []) (fpOf df target []) x y with
      | error e =>
        refine ⟨fun st' V h => by simp at h, fun hn => ?_⟩
        obtain ⟨q1, q2⟩ := g3 e hj
        obtain ⟨q, hq⟩ := hn.1 _ q1
        rw [q2] at hq; cases hq
      | ok o =>
        cases o with
        | none =>
          simp only
          apply skip _ _ rfl
          intro hall
          exact g2 hj (hall _ (by simp) (fun s hs => hs))
        | some v =>
          simp only
          obtain ⟨hv, hvs⟩ := g1 v hj
          have hlv : lst v = b := lst_eq hvs
          cases hh : cfg.handle target (tpOf df target []) (fpOf df target []) st v with
          | error e =>
            refine ⟨fun st' V h => by simp at h, fun hn => ?_⟩
            obtain ⟨st', hst⟩ := hn.2 st v hv
            rw [hh] at hst; cases hst
          | ok st1 =>
            simp only
            cases hrec : VLSDConfig.joinRight I cfg target (tpOf df target []) (fpOf df target []) M x ys st1 with
            | error e =>
              refine ⟨fun st' V h => by simp at h, fun hn => ?_⟩
              obtain ⟨r, hr⟩ := (ih st1).2 hn
              rw [hrec] at hr; cases hr
            | ok r =>
              obtain ⟨st2, V⟩ := r
              refine ⟨fun st' V' h => ?_, fun _ => ⟨_, rfl⟩⟩
              simp only [Except.ok.injEq, Prod.mk.injEq] at h
              obtain ⟨rfl, rfl⟩ := h
              obtain ⟨i1, i2, i3, i4⟩ := (ih st1).1 st2 V hrec
              refine ⟨?_, ?_, ?_, ?_⟩
              · intro w hw
                rcases List.mem_cons.1 hw with rfl | hw
                · exact ⟨hv, by rw [hlv, hvs]⟩
                · exact i1 w hw
              · rw [List.map_cons, List.map_cons, hlv, hl]
                exact i2.cons_cons _
              · rw [List.foldlM_cons, hh]
                exact i3
              · intro b' hb' hall
                rw [List.map_cons, List.mem_cons] at hb' ⊢
                rcases hb' with rfl | hb'
                · left; rw [hl, hlv]
                · right; exact i4 b' hb' hall

/-- what a call of `_search` reports -/
structure SearchSpec (L : I.Laws) (cfg : VLSDConfig) (df : Frame) (target : Str × Str) (pre xs : List Selector)
    (C : List (VList Selector Seq)) : Prop where
  sound : ∀ v ∈ C, Repr L cfg df target v ∧ ∃ Z : List Selector, v.sels = pre ++ Z ∧ Z.Nodup ∧ (∀ s ∈ Z, s ∈ xs) ∧ 2 ≤ Z.length
  distinct : C.Pairwise (fun u v => ¬ ∀ s, s ∈ u.sels ↔ s ∈ v.sels)
  complete : ∀ Z : List Selector, Z.Nodup → (∀ s ∈ Z, s ∈ xs) → 2 ≤ Z.length → AllReach cfg df target (pre ++ Z) →
    ∃ v ∈ C, ∀ s, s ∈ v.sels ↔ s ∈ pre ++ Z

theorem sort_perm (c : SortCriterion) (l : List (VList Selector Seq)) : (c.sort l).Perm l := by
  cases c
  · exact stableSort_perm l
  · exact stableSort_perm l
  · exact List.Perm.refl _

/-- one step: the lists obtained from `a` and the rest of the search -/
theorem SearchSpec.step {L : I.Laws} {cfg : VLSDConfig} {df : Frame} {target : Str × Str} {pre xs : List Selector} {a : Selector}
    {V C1 C2 : List (VList Selector Seq)} (hax : a ∉ xs) (hap : a ∉ pre) (hxp : ∀ s ∈ xs, s ∉ pre)
    (hV : Level L cfg df target (pre ++ [a]) V) (hVs : (V.map lst).Nodup) (hVx : ∀ b ∈ V.map lst, b ∈ xs)
    (hVc : ∀ b ∈ xs, AllReach cfg df target (pre ++ [a] ++ [b]) → b ∈ V.map lst)
    (h1 : SearchSpec L cfg df target (pre ++ [a]) (V.map lst) C1) (h2 : SearchSpec L cfg df target pre xs C2) :
    SearchSpec L cfg df target pre (a :: xs) (V ++ C1 ++ C2) := by
  have hVsels : ∀ v ∈ V, v.sels = pre ++ [a] ++ [lst v] := fun v hv => (hV v hv).2
  have mem1 : ∀ v ∈ V ++ C1, a ∈ v.sels := by
    intro v hv
    rcases List.mem_append.1 hv with hv | hv
    · rw [hVsels v hv]; simp
    · obtain ⟨_, Z, hz, _⟩ := h1.sound v hv; rw [hz]; simp
  have mem2 : ∀ v ∈ C2, a ∉ v.sels := by
    intro v hv
    obtain ⟨_, Z, hz, _, hzx, _⟩ := h2.sound v hv
    rw [hz, List.mem_append]
    rintro (h | h)
    · exact hap h
    · exact hax (hzx a h)
  refine ⟨?_, ?_, ?_⟩
  · intro v hv
    rcases List.mem_append.1 hv with hv | hv
    · rcases List.mem_append.1 hv with hv | hv
      · have hb := hVx _ (List.mem_map_of_mem hv)
        refine ⟨(hV v hv).1, [a, lst v], by rw [hVsels v hv]; simp, ?_, ?_, by simp⟩
        · simp only [List.nodup_cons, List.mem_singleton, List.not_mem_nil, not_false_eq_true, List.nodup_nil, and_self, and_true]
          rintro h; rw [h] at hax; exact hax hb
        · intro s hs
          simp only [List.mem_cons, List.not_mem_nil, or_false] at hs ⊢
          rcases hs with rfl | rfl
          · exact .inl rfl
          · exact .inr hb
      · obtain ⟨hr, Z, hz, hzn, hzx, hzl⟩ := h1.sound v hv
        refine ⟨hr, a :: Z, by rw [hz]; simp, ?_, ?_, by simp; omega⟩
        · exact List.nodup_cons.2 ⟨fun h => hax (hVx _ (hzx a h)), hzn⟩
        · intro s hs
          rcases List.mem_cons.1 hs with rfl | hs
          · simp
          · exact List.mem_cons_of_mem _ (hVx _ (hzx s hs))
    · obtain ⟨hr, Z, hz, hzn, hzx, hzl⟩ := h2.sound v hv
      exact ⟨hr, Z, hz, hzn, fun s hs => List.mem_cons_of_mem _ (hzx s hs), hzl⟩
  · rw [List.pairwise_append, List.pairwise_append]
    refine ⟨⟨?_, h1.distinct, ?_⟩, h2.distinct, ?_⟩
    · have hp : V.Pairwise (fun u v => lst u ≠ lst v) := by
        rw [List.Nodup, List.pairwise_map] at hVs
        exact hVs
      refine hp.imp_of_mem ?_
      intro u v hu hv hne hh
      have hu2 := hVsels u hu
      have hv2 := hVsels v hv
      have h3 : lst u ∈ v.sels := (hh _).1 (by rw [hu2]; simp)
      have hb := hVx _ (List.mem_map_of_mem hu)
      rw [hv2] at h3
      simp only [List.mem_append, List.mem_singleton] at h3
      rcases h3 with (h3 | h3) | h3
      · exact hxp _ hb h3
      · rw [h3] at hb; exact hax hb
      · exact hne h3
    · intro u hu v hv hh
      obtain ⟨_, Z, hz, hzn, hzx, hzl⟩ := h1.sound v hv
      have hu2 := hVsels u hu
      -- two different elements of Z, both would be `lst u`
      match Z, hzl with
      | z1 :: z2 :: Z, _ =>
        have : ∀ z ∈ z1 :: z2 :: Z, z = lst u := by
          intro z hzm
          have h3 : z ∈ u.sels := (hh z).2 (by rw [hz]; simp only [List.mem_append]; exact .inr hzm)
          have hb := hVx _ (hzx z hzm)
          rw [hu2] at h3
          simp only [List.mem_append, List.mem_singleton] at h3
          rcases h3 with (h3 | h3) | h3
          · exact absurd h3 (hxp _ hb)
          · rw [h3] at hb; exact absurd hb hax
          · exact h3
        have e1 := this z1 (by simp)
        have e2 := this z2 (by simp)
        rw [e1, e2] at hzn
        simp at hzn
    · intro u hu v hv hh
      exact mem2 v hv ((hh a).1 (mem1 u hu))
  · intro Z hzn hzx hzl hall
    by_cases haZ : a ∈ Z
    · have hZ' : ∀ s, s ∈ Z ↔ s = a ∨ s ∈ Z.erase a := by
        intro s
        rw [← List.mem_cons]
        exact (List.perm_cons_erase haZ).mem_iff
      have hnd : (Z.erase a).Nodup := hzn.erase a
      have hne : ∀ s ∈ Z.erase a, s ∈ xs := by
        intro s hs
        have h3 := hzx s (List.mem_of_mem_erase hs)
        rcases List.mem_cons.1 h3 with rfl | h3
        · exact absurd hs (hzn.not_mem_erase)
        · exact h3
      have hlen : (Z.erase a).length = Z.length - 1 := List.length_erase_of_mem haZ
      have hV' : ∀ s ∈ Z.erase a, s ∈ V.map lst := by
        intro s hs
        apply hVc s (hne s hs)
        apply hall.mono
        intro t ht
        simp only [List.mem_append, List.mem_singleton] at ht ⊢
        rcases ht with (h | rfl) | rfl
        · exact .inl h
        · exact .inr haZ
        · exact .inr (List.mem_of_mem_erase hs)
      have hmem : ∀ s, s ∈ pre ++ [a] ++ Z.erase a ↔ s ∈ pre ++ Z := by
        intro s
        simp only [List.mem_append, List.mem_singleton]
        rw [hZ' s]; tauto
      by_cases h1l : Z.length = 2
      · obtain ⟨b, hb⟩ := List.length_eq_one_iff.1 (show (Z.erase a).length = 1 by omega)
        obtain ⟨v, hv, hvb⟩ := List.mem_map.1 (hV' b (by rw [hb]; simp))
        refine ⟨v, by simp [hv], fun s => ?_⟩
        rw [← hmem s, hb, hVsels v hv, hvb]
      · obtain ⟨v, hv, hvs⟩ := h1.complete (Z.erase a) hnd hV' (by omega) (hall.mono (fun s hs => (hmem s).1 hs))
        refine ⟨v, by simp [hv], fun s => ?_⟩
        rw [hvs, hmem]
    · have hzx' : ∀ s ∈ Z, s ∈ xs := by
        intro s hs
        rcases List.mem_cons.1 (hzx s hs) with rfl | h
        · exact absurd hs haZ
        · exact h
      obtain ⟨v, hv, hvs⟩ := h2.complete Z hzn hzx' hzl hall
      exact ⟨v, by simp [hv], hvs⟩

theorem foldlM_append_ok {α β : Type} {f : α → β → Except PyErr α} {l m : List β} {a b c : α} (h1 : l.foldlM f a = .ok b) (h2 : m.foldlM f b = .ok c) :
    (l ++ m).foldlM f a = .ok c := by
  rw [List.foldlM_append, h1]; exact h2

theorem SearchSpec.nil (L : I.Laws) (cfg : VLSDConfig) (df : Frame) (target : Str × Str) (pre : List Selector) :
    SearchSpec L cfg df target pre [] ([] : List (VList Selector Seq)) := by
  refine ⟨by simp, by simp, ?_⟩
  intro Z _ hz hl
  match Z, hl with
  | z :: _, _ => exact absurd (hz z (by simp)) (by simp)

theorem SearchSpec.congr {L : I.Laws} {cfg : VLSDConfig} {df : Frame} {target : Str × Str} {pre xs ys : List Selector}
    {C : List (VList Selector Seq)} (h : SearchSpec L cfg df target pre xs C) (he : ∀ s, s ∈ xs ↔ s ∈ ys) :
    SearchSpec L cfg df target pre ys C := by
  refine ⟨fun v hv => ?_, h.distinct, fun Z h1 h2 h3 h4 => h.complete Z h1 (fun s hs => (he s).2 (h2 s hs)) h3 h4⟩
  obtain ⟨hr, Z, hz, hzn, hzx, hzl⟩ := h.sound v hv
  exact ⟨hr, Z, hz, hzn, fun s hs => (he s).1 (hzx s hs), hzl⟩

theorem search_spec {L : I.Laws} {cfg : VLSDConfig} {df : Frame} {target : Str × Str} (hc : CfgOK cfg) {M : VMatrix Seq}
    {base : List Selector} (hM : MatrixFull cfg df target base M) (n : Nat) :
    ∀ (P : List (VList Selector Seq)) (pre : List Selector) (st : VLState Seq), P.length ≤ n → Level L cfg df target pre P →
      pre.Nodup → (P.map lst).Nodup → (∀ s ∈ P.map lst, s ∉ pre) → (∀ s ∈ P.map lst, s ∈ base) →
    (∀ st', VLSDConfig.search I cfg target (tpOf df target []) (fpOf df target []) M P st = .ok st' →
      ∃ C, C.foldlM (cfg.handle target (tpOf df target []) (fpOf df target [])) st = .ok st' ∧
        SearchSpec L cfg df target pre (P.map lst) C) ∧
    (NoErr L cfg df target → ∃ st', VLSDConfig.search I cfg target (tpOf df target []) (fpOf df target []) M P st = .ok st') := by
  induction n with
  | zero =>
    intro P pre st hn
    have : P = [] := List.length_eq_zero_iff.1 (by omega)
    subst this
    intro _ _ _ _ _
    refine ⟨fun st' h => ?_, fun _ => ⟨st, by simp [VLSDConfig.search]⟩⟩
    simp only [VLSDConfig.search, Except.ok.injEq] at h
    subst h
    exact ⟨[], rfl, SearchSpec.nil _ _ _ _ _⟩
  | succ n ih =>
    intro P pre st hn hlev hpre hnd hdis hbase
    cases P with
    | nil =>
      refine ⟨fun st' h => ?_, fun _ => ⟨st, by simp [VLSDConfig.search]⟩⟩
      simp only [VLSDConfig.search, Except.ok.injEq] at h
      subst h
      exact ⟨[], rfl, SearchSpec.nil _ _ _ _ _⟩
    | cons x rest =>
      rw [List.map_cons] at hnd hdis hbase
      have hnd' := List.nodup_cons.1 hnd
      obtain ⟨hx, hxs⟩ := hlev x (by simp)
      have hlev' : Level L cfg df target pre rest := fun v hv => hlev v (by simp [hv])
      obtain ⟨j1, j2⟩ := joinRight_spec hc hM hx hxs (hbase _ (by simp)) rest hlev'
        (fun v hv => hbase _ (List.mem_cons_of_mem _ (List.mem_map_of_mem hv)))
        (fun v hv h => hnd'.1 (by rw [← h]; exact List.mem_map_of_mem hv)) st
      simp only [List.length_cons] at hn
      rw [VLSDConfig.search]
      cases hj : VLSDConfig.joinRight I cfg target (tpOf df target []) (fpOf df target []) M x rest st with
      | error e =>
        refine ⟨fun st' h => by simp at h, fun hne => ?_⟩
        obtain ⟨r, hr⟩ := j2 hne
        rw [hj] at hr; cases hr
      | ok r =>
        obtain ⟨st1, V⟩ := r
        obtain ⟨v1, v2, v3, v4⟩ := j1 st1 V hj
        have hVlen := VLSDConfig.joinRight_length hj
        have hperm : (cfg.sortOther.sort V).Perm V := sort_perm _ _
        have hlm : ((cfg.sortOther.sort V).map lst).Perm (V.map lst) := hperm.map _
        have hVnd : (V.map lst).Nodup := v2.nodup hnd'.2
        have hVx : ∀ b ∈ V.map lst, b ∈ rest.map lst := fun b hb => v2.subset hb
        have hpre' : (pre ++ [lst x]).Nodup := by
          rw [List.nodup_append]
          refine ⟨hpre, by simp, ?_⟩
          intro s hs t ht
          simp only [List.mem_singleton] at ht
          rintro rfl
          rw [ht] at hs
          exact hdis _ (by simp) hs
        obtain ⟨s1, s2⟩ := ih (cfg.sortOther.sort V) (pre ++ [lst x]) st1 (by rw [VLSDConfig.sort_length]; omega)
          (fun v hv => v1 v (hperm.mem_iff.1 hv)) hpre' (hlm.nodup_iff.2 hVnd)
          (by
            intro s hs
            have hs' := hVx s (hlm.mem_iff.1 hs)
            simp only [List.mem_append, List.mem_singleton]
            rintro (h | h)
            · exact hdis s (List.mem_cons_of_mem _ hs') h
            · rw [h] at hs'; exact hnd'.1 hs')
          (fun s hs => hbase s (List.mem_cons_of_mem _ (hVx s (hlm.mem_iff.1 hs))))
        -- the recursive call on V, also when V is empty
        have sV : (∀ st', (if V = [] then Except.ok st1 else VLSDConfig.search I cfg target (tpOf df target []) (fpOf df target []) M (cfg.sortOther.sort V) st1) = .ok st' →
            ∃ C, C.foldlM (cfg.handle target (tpOf df target []) (fpOf df target [])) st1 = .ok st' ∧
              SearchSpec L cfg df target (pre ++ [lst x]) (V.map lst) C) ∧
            (NoErr L cfg df target → ∃ st', (if V = [] then Except.ok st1 else VLSDConfig.search I cfg target (tpOf df target []) (fpOf df target []) M (cfg.sortOther.sort V) st1) = .ok st') := by
          by_cases hV0 : V = []
          · rw [if_pos hV0, hV0]
            refine ⟨fun st' h => ?_, fun _ => ⟨_, rfl⟩⟩
            cases h
            exact ⟨[], rfl, SearchSpec.nil _ _ _ _ _⟩
          · rw [if_neg hV0]
            refine ⟨fun st' h => ?_, s2⟩
            obtain ⟨C, c1, c2⟩ := s1 st' h
            exact ⟨C, c1, c2.congr (fun s => hlm.mem_iff)⟩
        simp only
        cases hs : (if V = [] then Except.ok st1 else VLSDConfig.search I cfg target (tpOf df target []) (fpOf df target []) M (cfg.sortOther.sort V) st1) with
        | error e =>
          refine ⟨fun st' h => by simp at h, fun hne => ?_⟩
          obtain ⟨r, hr⟩ := sV.2 hne
          rw [hs] at hr; cases hr
        | ok st2 =>
          simp only
          obtain ⟨C1, c1, c2⟩ := sV.1 st2 hs
          obtain ⟨t1, t2⟩ := ih rest pre st2 (by omega) hlev' hpre hnd'.2 (fun s hs => hdis s (List.mem_cons_of_mem _ hs))
            (fun s hs => hbase s (List.mem_cons_of_mem _ hs))
          refine ⟨fun st' h => ?_, t2⟩
          obtain ⟨C2, c3, c4⟩ := t1 st' h
          refine ⟨V ++ C1 ++ C2, foldlM_append_ok (foldlM_append_ok v3 c1) c3, ?_⟩
          rw [List.map_cons]
          exact SearchSpec.step hnd'.1 (hdis _ (by simp)) (fun s hs => hdis s (List.mem_cons_of_mem _ hs)) v1 hVnd hVx v4 c2 c4

end
end Verif
