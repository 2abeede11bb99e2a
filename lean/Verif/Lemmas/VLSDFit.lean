import Verif.Lemmas.VLSD
/-! Lemmas for VLSD: the first two levels and `fit`. -/
namespace Verif
open Spec
section
open Classical
variable {Seq : Type} {I : VLImpl Seq}

theorem collect_spec {α β : Type} {f : α → Except PyErr (Option β)} (l : List α) :
    (∀ r, VLSDConfig.collect f l = .ok r → (∀ b, b ∈ r ↔ ∃ a ∈ l, f a = .ok (some b)) ∧ (∀ a ∈ l, ∃ o, f a = .ok o) ∧
      ∀ {γ : Type} (g : β → γ) (k : α → γ), (∀ a ∈ l, ∀ b, f a = .ok (some b) → g b = k a) → (r.map g).Sublist (l.map k)) ∧
    ((∀ a ∈ l, ∃ o, f a = .ok o) → ∃ r, VLSDConfig.collect f l = .ok r) := by
  induction l with
  | nil =>
    refine ⟨fun r h => ?_, fun _ => ⟨_, rfl⟩⟩
    simp only [VLSDConfig.collect, Except.ok.injEq] at h
    subst h
    simp
  | cons a l ih =>
    unfold VLSDConfig.collect
    cases hf : f a with
    | error e =>
      refine ⟨fun r h => by simp at h, fun h => ?_⟩
      obtain ⟨o, ho⟩ := h a (by simp)
      rw [hf] at ho; cases ho
    | ok o =>
      simp only
      cases hc : VLSDConfig.collect f l with
      | error e =>
        refine ⟨fun r h => by simp at h, fun h => ?_⟩
        obtain ⟨r, hr⟩ := ih.2 (fun a ha => h a (by simp [ha]))
        rw [hc] at hr; cases hr
      | ok r' =>
        obtain ⟨i1, i2, i3⟩ := ih.1 r' hc
        refine ⟨fun r h => ?_, fun _ => ⟨_, rfl⟩⟩
        simp only [Except.ok.injEq] at h
        subst h
        refine ⟨?_, ?_, ?_⟩
        · intro b
          rw [List.mem_append, List.exists_mem_cons_iff, i1, hf]
          cases o <;> simp [eq_comm]
        · intro a' ha'
          rcases List.mem_cons.1 ha' with rfl | ha'
          · exact ⟨o, hf⟩
          · exact i2 a' ha'
        · intro γ g k hk
          have := i3 g k (fun a' ha' b hb => hk a' (by simp [ha']) b hb)
          cases o with
          | none => simp only [Option.toList, List.nil_append, List.map_cons]; exact this.trans (List.sublist_cons_self _ _)
          | some b =>
            simp only [Option.toList, List.singleton_append, List.map_cons]
            rw [hk a (by simp) b hf]
            exact this.cons_cons _

variable {df : Frame} {target : Str × Str}

/-- the attribute-value pairs of the data -/
def dataItems (df : Frame) (tname : Str) : List ((Str × List Val) × Val) :=
  (otherCols df tname).flatMap (fun c => (groupKeys c.2).map (fun v => (c, v)))

def itemSel (e : (Str × List Val) × Val) : Selector := ⟨e.1.1, .equal, e.2⟩

theorem mem_dataItems (e : (Str × List Val) × Val) : e ∈ dataItems df target.1 ↔ e.1 ∈ df.cols ∧ e.1.1 ≠ target.1 ∧ e.2 ∈ e.1.2 := by
  obtain ⟨c, v⟩ := e
  simp only [dataItems, List.mem_flatMap, mem_otherCols, List.mem_map, mem_groupKeys, Prod.mk.injEq]
  constructor
  · rintro ⟨c', ⟨h1, h2⟩, v', h3, rfl, rfl⟩; exact ⟨h1, h2, h3⟩
  · rintro ⟨h1, h2, h3⟩; exact ⟨c, ⟨h1, h2⟩, v, h3, rfl, rfl⟩

theorem nodup_dataItems (hf : NominalFrame df target) : ((dataItems df target.1).map itemSel).Nodup := by
  unfold dataItems
  rw [List.map_flatMap, List.nodup_flatMap]
  constructor
  · intro c _
    rw [List.map_map]
    apply List.Nodup.map_on
    · intro x _ y _ hxy
      simpa [itemSel] using hxy
    · unfold groupKeys
      exact (stableSort_perm _).nodup_iff.2 (List.nodup_dedup _)
  · have hnd : (otherCols df target.1).Pairwise (fun c c' => c.1 ≠ c'.1) := by
      have := hf.names
      rw [List.Nodup, List.pairwise_map] at this
      exact this.sublist List.filter_sublist
    apply hnd.imp
    intro c c' hcc s h1 h2
    simp only [List.map_map, List.mem_map, Function.comp_apply, itemSel] at h1 h2
    obtain ⟨v, _, rfl⟩ := h1
    obtain ⟨v', _, h⟩ := h2
    simp only [Selector.mk.injEq] at h
    exact hcc h.1.symm

/-- an attribute = text selector on another column than the target -/
def IsSel (target : Str × Str) (s : Selector) : Prop := s.attr ≠ target.1 ∧ s.op = .equal ∧ ∃ v, s.val = .str v

theorem covers_item (hf : NominalFrame df target) {c : Str × List Val} (hc : c ∈ df.cols) (x : Str) (i : Nat) :
    Covers df [⟨c.1, .equal, .str x⟩] i ↔ c.2[i]? = some (.str x) := by
  simp only [Covers, List.mem_singleton, forall_eq, matchesAt_iff hf]
  constructor
  · rintro ⟨c', hc', h1, h2⟩
    have e1 := lookup_of_mem_cols hf hc
    have e2 := lookup_of_mem_cols hf hc'
    rw [h1, e1] at e2
    rw [Option.some.inj e2]; exact h2
  · intro h; exact ⟨c, hc, rfl, h⟩

/-- the data of one `fit`: the mask of the target -/
structure MaskOK (df : Frame) (target : Str × Str) (mask : List Bool) : Prop where
  len : mask.length = df.nrows
  iff : ∀ i, mask[i]? = some true ↔ MatchesAt df (targetSel target) i

theorem single_spec {L : I.Laws} {cfg : VLSDConfig} (hf : NominalFrame df target) {mask : List Bool} (hm : MaskOK df target mask)
    {e : (Str × List Val) × Val} (he : e ∈ dataItems df target.1) :
    (∀ v, cfg.single I df.nrows (tpOf df target []) (fpOf df target []) mask e.1 e.2 = .ok (some v) →
      Repr L cfg df target v ∧ v.sels = [itemSel e]) ∧
    (cfg.single I df.nrows (tpOf df target []) (fpOf df target []) mask e.1 e.2 = .ok none → ¬ Reaches cfg df target [itemSel e]) ∧
    (NoErr L cfg df target → ∃ o, cfg.single I df.nrows (tpOf df target []) (fpOf df target []) mask e.1 e.2 = .ok o) := by
  obtain ⟨h1, h2, h3⟩ := (mem_dataItems e).1 he
  obtain ⟨x, hx⟩ := hf.texts _ h1 _ h3
  have hsel : itemSel e = ⟨e.1.1, .equal, .str x⟩ := by unfold itemSel; rw [hx]
  have hocc : OccursIn df [itemSel e] := by
    obtain ⟨i, hi, hiv⟩ := List.mem_iff_getElem.1 h3
    refine ⟨i, by rw [hf.wf _ h1] at hi; exact hi, ?_⟩
    rw [hsel, covers_item hf h1, List.getElem?_eq_getElem hi, hiv, hx]
  have hmask : ∀ i, (mask[i]?.getD false) = true ↔ MatchesAt df (targetSel target) i := by
    intro i
    rw [← hm.iff i]
    cases h : mask[i]? <;> simp
  have r1 : ∀ i, i ∈ VLSDConfig.registers df.nrows e.1.2 mask e.2 true ↔ i < df.nrows ∧ (Covers df [itemSel e] i ∧ MatchesAt df (targetSel target) i) := by
    intro i
    unfold VLSDConfig.registers
    rw [List.mem_filter, List.mem_range, Bool.and_eq_true, decide_eq_true_iff, beq_iff_eq, hmask, hsel, covers_item hf h1, hx]
  have r2 : ∀ i, i ∈ VLSDConfig.registers df.nrows e.1.2 mask e.2 false ↔ i < df.nrows ∧ (Covers df [itemSel e] i ∧ ¬ MatchesAt df (targetSel target) i) := by
    intro i
    unfold VLSDConfig.registers
    rw [List.mem_filter, List.mem_range, Bool.and_eq_true, decide_eq_true_iff, beq_iff_eq, ← Bool.not_eq_true, hmask, hsel, covers_item hf h1, hx]
  have n1 : (VLSDConfig.registers df.nrows e.1.2 mask e.2 true).Nodup := List.nodup_range.filter _
  have n2 : (VLSDConfig.registers df.nrows e.1.2 mask e.2 false).Nodup := List.nodup_range.filter _
  have l1 : (VLSDConfig.registers df.nrows e.1.2 mask e.2 true).length = tpOf df target [itemSel e] := by rw [length_eq_cnt n1 r1, tpOf_cnt]
  have l2 : (VLSDConfig.registers df.nrows e.1.2 mask e.2 false).length = fpOf df target [itemSel e] := by rw [length_eq_cnt n2 r2, fpOf_cnt]
  have htot : tpOf df target [] + fpOf df target [] = df.nrows := by
    obtain ⟨c1, c2⟩ := count_true_mask hf hm.len hm.iff
    have : mask.count true ≤ mask.length := List.count_le_length
    rw [hm.len] at this
    omega
  unfold VLSDConfig.single
  simp only [l1, l2]
  cases hq : estimateOf cfg df target [itemSel e] with
  | error err =>
    have hq' := hq
    unfold estimateOf at hq'
    rw [hq']
    refine ⟨fun v h => by simp at h, fun h => by simp at h, fun hn => ?_⟩
    obtain ⟨q, hq2⟩ := hn.1 _ hocc
    rw [hq] at hq2; cases hq2
  | ok q =>
    have hq' := hq
    unfold estimateOf at hq'
    rw [hq']
    simp only
    by_cases hge : q ≥ cfg.minEstimate
    · rw [if_pos hge, htot]
      obtain ⟨v, v1, v2, v3, v4, v5, v6, v7, v8⟩ := L.new [⟨e.1.1, .equal, e.2⟩] _ _ df.nrows q n1 n2 (fun i hi => ((r1 i).1 hi).1) (fun i hi => ((r2 i).1 hi).1)
      rw [v1]
      refine ⟨fun w h => ?_, fun h => by simp at h, fun _ => ⟨_, rfl⟩⟩
      simp only [Except.ok.injEq, Option.some.injEq] at h
      subst h
      have hs : v.sels = [itemSel e] := v2
      refine ⟨⟨v3, by rw [v5, hs, l1], by rw [v6, hs, l2], ?_, ?_, by rw [hs, hq, v4], by rw [hs]; exact hocc, by rw [v4]; exact hge⟩, hs⟩
      · refine L.congr _ _ _ _ ?_ v7
        intro i hi
        rw [hs, r1]; tauto
      · refine L.congr _ _ _ _ ?_ v8
        intro i hi
        rw [hs, r2]; tauto
    · rw [if_neg hge]
      refine ⟨fun w h => by simp at h, fun _ hr => ?_, fun _ => ⟨_, rfl⟩⟩
      obtain ⟨_, q', hq2, hle⟩ := hr
      rw [hq] at hq2
      cases hq2
      exact hge hle

/-- the selectors that occur are those of the items -/
theorem isSel_item (hf : NominalFrame df target) {s : Selector} : (s ∈ (dataItems df target.1).map itemSel) ↔ IsSel target s ∧ OccursIn df [s] := by
  constructor
  · intro h
    obtain ⟨e, he, rfl⟩ := List.mem_map.1 h
    obtain ⟨h1, h2, h3⟩ := (mem_dataItems e).1 he
    obtain ⟨x, hx⟩ := hf.texts _ h1 _ h3
    refine ⟨⟨h2, rfl, x, hx⟩, ?_⟩
    obtain ⟨i, hi, hiv⟩ := List.mem_iff_getElem.1 h3
    refine ⟨i, by rw [hf.wf _ h1] at hi; exact hi, ?_⟩
    unfold itemSel
    rw [hx, covers_item hf h1, List.getElem?_eq_getElem hi, hiv, hx]
  · rintro ⟨⟨h1, h2, x, hx⟩, i, hi, hc⟩
    have hs : s = ⟨s.attr, .equal, .str x⟩ := by rw [← h2, ← hx]
    have := hc s (by simp)
    rw [hs, matchesAt_iff hf] at this
    obtain ⟨c, hc1, hc2, hc3⟩ := this
    refine List.mem_map.2 ⟨(c, .str x), (mem_dataItems _).2 ⟨hc1, by rw [hc2]; exact h1, List.mem_of_getElem? hc3⟩, ?_⟩
    rw [hs]; simp [itemSel, hc2]

theorem s1_spec {L : I.Laws} {cfg : VLSDConfig} (hf : NominalFrame df target) {mask : List Bool} (hm : MaskOK df target mask) :
    (∀ S1, cfg.s1 I df target.1 mask (tpOf df target []) (fpOf df target []) = .ok S1 →
      Level L cfg df target [] S1 ∧ (S1.map lst).Nodup ∧ (∀ s ∈ S1.map lst, IsSel target s) ∧
      ∀ s, IsSel target s → Reaches cfg df target [s] → s ∈ S1.map lst) ∧
    (NoErr L cfg df target → ∃ S1, cfg.s1 I df target.1 mask (tpOf df target []) (fpOf df target []) = .ok S1) := by
  have hcs := collect_spec (f := fun cv : (Str × List Val) × Val => cfg.single I df.nrows (tpOf df target []) (fpOf df target []) mask cv.1 cv.2) (dataItems df target.1)
  have hss := fun e (he : e ∈ dataItems df target.1) => single_spec (L := L) (cfg := cfg) hf hm he
  unfold VLSDConfig.s1
  rw [show (otherCols df target.1).flatMap (fun c => (groupKeys c.2).map (fun v => (c, v))) = dataItems df target.1 from rfl]
  cases hc : VLSDConfig.collect (fun cv : (Str × List Val) × Val => cfg.single I df.nrows (tpOf df target []) (fpOf df target []) mask cv.1 cv.2) (dataItems df target.1) with
  | error err =>
    refine ⟨fun S1 h => by simp at h, fun hn => ?_⟩
    obtain ⟨r, hr⟩ := hcs.2 (fun e he => (hss e he).2.2 hn)
    rw [hc] at hr; cases hr
  | ok l =>
    refine ⟨fun S1 h => ?_, fun _ => ⟨_, rfl⟩⟩
    simp only [Except.ok.injEq] at h
    subst h
    obtain ⟨c1, c2, c3⟩ := hcs.1 l hc
    have hperm := sort_perm cfg.sortS1 l
    have hlm : ((cfg.sortS1.sort l).map lst).Perm (l.map lst) := hperm.map _
    have hsub := c3 lst itemSel (fun e he b hb => by
      have := ((hss e he).1 b hb).2
      exact lst_eq (pre := []) (by simpa using this))
    refine ⟨?_, hlm.nodup_iff.2 (hsub.nodup (nodup_dataItems hf)), ?_, ?_⟩
    · intro v hv
      obtain ⟨e, he, hev⟩ := (c1 v).1 (hperm.mem_iff.1 hv)
      obtain ⟨h1, h2⟩ := (hss e he).1 v hev
      refine ⟨h1, ?_⟩
      rw [lst_eq (pre := []) (a := itemSel e) (by simpa using h2), h2]
      rfl
    · intro s hs
      exact ((isSel_item hf).1 (hsub.subset (hlm.mem_iff.1 hs))).1
    · intro s hs hr
      obtain ⟨e, he, rfl⟩ := List.mem_map.1 ((isSel_item hf).2 ⟨hs, hr.1⟩)
      rw [hlm.mem_iff]
      obtain ⟨o, ho⟩ := c2 e he
      cases o with
      | none => exact absurd hr ((hss e he).2.1 ho)
      | some v =>
        refine List.mem_map.2 ⟨v, (c1 v).2 ⟨e, he, ho⟩, ?_⟩
        exact lst_eq (pre := []) (by simpa using ((hss e he).1 v ho).2)

/-- the row of the matrix for `x` -/
structure RowOK (L : I.Laws) (cfg : VLSDConfig) (df : Frame) (target : Str × Str) (x : VList Selector Seq) (rest : List (VList Selector Seq))
    (row : List (Selector × VList Selector Seq)) : Prop where
  level : Level L cfg df target [lst x] (row.map (·.2))
  keys : row.map (·.1) = (row.map (·.2)).map lst
  sub : (row.map (·.1)).Sublist (rest.map lst)
  full : ∀ b ∈ rest.map lst, Reaches cfg df target [lst x, b] → b ∈ row.map (·.1)

def RowsOK (L : I.Laws) (cfg : VLSDConfig) (df : Frame) (target : Str × Str) (M : VMatrix Seq) : List (VList Selector Seq) → Prop
  | [] => True
  | x :: rest => (∃ row, M.lookup (lst x) = (if row = [] then none else some row) ∧ RowOK L cfg df target x rest row) ∧
      RowsOK L cfg df target M rest

theorem RowsOK.cons {L : I.Laws} {cfg : VLSDConfig} {M : VMatrix Seq} {a : Selector} {row : List (Selector × VList Selector Seq)}
    {S : List (VList Selector Seq)} (h : RowsOK L cfg df target M S) (ha : a ∉ S.map lst) : RowsOK L cfg df target ((a, row) :: M) S := by
  induction S with
  | nil => trivial
  | cons x rest ih =>
    rw [List.map_cons, List.mem_cons, not_or] at ha
    obtain ⟨⟨r, h1, h2⟩, h3⟩ := h
    refine ⟨⟨r, ?_, h2⟩, ih h3 ha.2⟩
    rw [← h1, List.lookup_cons, beq_false_of_ne (Ne.symm ha.1)]

theorem pair_spec {L : I.Laws} {cfg : VLSDConfig} (hc : CfgOK cfg) {x y : VList Selector Seq}
    (hx : Repr L cfg df target x ∧ x.sels = [] ++ [lst x]) (hy : Repr L cfg df target y ∧ y.sels = [] ++ [lst y]) :
    (∀ e, cfg.pair I (tpOf df target []) (fpOf df target []) x y = .ok (some e) →
      e.1 = lst y ∧ Repr L cfg df target e.2 ∧ e.2.sels = [lst x] ++ [lst y]) ∧
    (cfg.pair I (tpOf df target []) (fpOf df target []) x y = .ok none → ¬ Reaches cfg df target [lst x, lst y]) ∧
    (NoErr L cfg df target → ∃ o, cfg.pair I (tpOf df target []) (fpOf df target []) x y = .ok o) := by
  obtain ⟨g1, g2, g3⟩ := goodJoin_spec hc hx.1 hy.1 hx.2 hy.2
  have hyl : y.sels.getLast? = some (lst y) := by conv_lhs => rw [hy.2]
                                                  simp
  unfold VLSDConfig.pair
  cases hj : cfg.goodJoin I (tpOf df target []) (fpOf df target []) x y with
  | error e =>
    refine ⟨fun e h => by simp at h, fun h => by simp at h, fun hn => ?_⟩
    obtain ⟨h1, h2⟩ := g3 e hj
    obtain ⟨q, hq⟩ := hn.1 _ h1
    rw [h2] at hq; cases hq
  | ok o =>
    cases o with
    | none =>
      refine ⟨fun e h => by simp at h, fun _ => ?_, fun _ => ⟨_, rfl⟩⟩
      exact g2 hj
    | some v =>
      simp only
      rw [hyl]
      refine ⟨fun e h => ?_, fun h => by simp at h, fun _ => ⟨_, rfl⟩⟩
      simp only [Except.ok.injEq, Option.some.injEq] at h
      subst h
      obtain ⟨h1, h2⟩ := g1 v hj
      exact ⟨rfl, h1, by simpa using h2⟩

theorem matrix_spec {L : I.Laws} {cfg : VLSDConfig} (hc : CfgOK cfg) (S : List (VList Selector Seq)) (hl : Level L cfg df target [] S)
    (hn : (S.map lst).Nodup) :
    (∀ M, cfg.matrix I (tpOf df target []) (fpOf df target []) S = .ok M → (∀ a ∈ M.map (·.1), a ∈ S.map lst) ∧ RowsOK L cfg df target M S) ∧
    (NoErr L cfg df target → ∃ M, cfg.matrix I (tpOf df target []) (fpOf df target []) S = .ok M) := by
  induction S with
  | nil =>
    refine ⟨fun M h => ?_, fun _ => ⟨_, rfl⟩⟩
    simp only [VLSDConfig.matrix, Except.ok.injEq] at h
    subst h
    exact ⟨by simp, trivial⟩
  | cons x rest ih =>
    rw [List.map_cons, List.nodup_cons] at hn
    have hl' : Level L cfg df target [] rest := fun v hv => hl v (by simp [hv])
    obtain ⟨i1, i2⟩ := ih hl' hn.2
    have hx := hl x (by simp)
    have hxl : x.sels.getLast? = some (lst x) := by conv_lhs => rw [hx.2]
                                                    simp
    have hp := fun y (hy : y ∈ rest) => pair_spec hc hx (hl' y hy)
    obtain ⟨c1, c2⟩ := collect_spec (f := cfg.pair I (tpOf df target []) (fpOf df target []) x) rest
    unfold VLSDConfig.matrix
    cases hcol : VLSDConfig.collect (cfg.pair I (tpOf df target []) (fpOf df target []) x) rest with
    | error e =>
      refine ⟨fun M h => by simp at h, fun hne => ?_⟩
      obtain ⟨r, hr⟩ := c2 (fun y hy => (hp y hy).2.2 hne)
      rw [hcol] at hr; cases hr
    | ok row =>
      obtain ⟨d1, d2, d3⟩ := c1 row hcol
      have hrow : RowOK L cfg df target x rest row := by
        have hmem : ∀ e ∈ row, ∃ y ∈ rest, e.1 = lst y ∧ Repr L cfg df target e.2 ∧ e.2.sels = [lst x] ++ [lst y] := by
          intro e he
          obtain ⟨y, hy, hye⟩ := (d1 e).1 he
          exact ⟨y, hy, (hp y hy).1 e hye⟩
        refine ⟨?_, ?_, d3 (·.1) lst (fun y hy e he => ((hp y hy).1 e he).1), ?_⟩
        · intro v hv
          obtain ⟨e, he, rfl⟩ := List.mem_map.1 hv
          obtain ⟨y, _, _, h2, h3⟩ := hmem e he
          refine ⟨h2, ?_⟩
          rw [lst_eq h3]; exact h3
        · rw [List.map_map]
          apply List.map_congr_left
          intro e he
          obtain ⟨y, _, h1, h2, h3⟩ := hmem e he
          rw [h1]; exact (lst_eq h3).symm
        · intro b hb hr
          obtain ⟨y, hy, rfl⟩ := List.mem_map.1 hb
          obtain ⟨o, ho⟩ := d2 y hy
          cases o with
          | none => exact absurd hr ((hp y hy).2.1 ho)
          | some e => exact List.mem_map.2 ⟨e, (d1 e).2 ⟨y, hy, ho⟩, ((hp y hy).1 e ho).1⟩
      simp only
      cases hM : cfg.matrix I (tpOf df target []) (fpOf df target []) rest with
      | error e =>
        refine ⟨fun M h => by simp at h, fun hne => ?_⟩
        obtain ⟨r, hr⟩ := i2 hne
        rw [hM] at hr; cases hr
      | ok M' =>
        obtain ⟨k1, k2⟩ := i1 M' hM
        simp only
        by_cases hr0 : row = []
        · rw [if_pos hr0]
          refine ⟨fun M h => ?_, fun _ => ⟨_, rfl⟩⟩
          simp only [Except.ok.injEq] at h
          subst h
          refine ⟨fun a ha => List.mem_cons_of_mem _ (k1 a ha), ⟨row, ?_, hrow⟩, k2⟩
          rw [if_pos hr0]
          exact lookup_none.2 (fun h => hn.1 (k1 _ h))
        · rw [if_neg hr0, hxl]
          refine ⟨fun M h => ?_, fun _ => ⟨_, rfl⟩⟩
          simp only [Except.ok.injEq] at h
          subst h
          refine ⟨?_, ⟨row, ?_, hrow⟩, k2.cons hn.1⟩
          · intro a ha
            rw [List.map_cons, List.mem_cons] at ha ⊢
            rcases ha with rfl | ha
            · exact .inl rfl
            · exact .inr (k1 a ha)
          · rw [if_neg hr0, List.lookup_cons, beq_self_eq_true]

theorem RowsOK.entries {L : I.Laws} {cfg : VLSDConfig} {M : VMatrix Seq} {S : List (VList Selector Seq)} (h : RowsOK L cfg df target M S) :
    ∀ a ∈ S.map lst, ∀ row, M.lookup a = some row → ∀ e ∈ row, cfg.minEstimate ≤ e.2.quality := by
  induction S with
  | nil => intro a ha; simp at ha
  | cons x rest ih =>
    intro a ha row hrow e he
    rw [List.map_cons, List.mem_cons] at ha
    obtain ⟨⟨r, h1, h2⟩, h3⟩ := h
    rcases ha with rfl | ha
    · rw [h1] at hrow
      split at hrow
      · cases hrow
      · cases hrow
        exact (h2.level e.2 (List.mem_map_of_mem he)).1.reach
    · exact ih h3 a ha row hrow e he

theorem RowsOK.pairs {L : I.Laws} {cfg : VLSDConfig} {M : VMatrix Seq} {S : List (VList Selector Seq)} (h : RowsOK L cfg df target M S) :
    ∀ a ∈ S.map lst, ∀ b ∈ S.map lst, a ≠ b → Reaches cfg df target [a, b] →
      (∃ row v, M.lookup a = some row ∧ row.lookup b = some v) ∨ (∃ row v, M.lookup b = some row ∧ row.lookup a = some v) := by
  have key : ∀ (x : VList Selector Seq) (rest : List (VList Selector Seq)) (row : List (Selector × VList Selector Seq)),
      M.lookup (lst x) = (if row = [] then none else some row) → RowOK L cfg df target x rest row → ∀ b ∈ rest.map lst,
      Reaches cfg df target [lst x, b] → ∃ row v, M.lookup (lst x) = some row ∧ row.lookup b = some v := by
    intro x rest row h1 h2 b hb hr
    have hk := h2.full b hb hr
    have hne : row ≠ [] := by rintro rfl; simp at hk
    rw [if_neg hne] at h1
    cases hlk : row.lookup b with
    | none => exact absurd hk (lookup_none.1 hlk)
    | some v => exact ⟨row, v, h1, hlk⟩
  induction S with
  | nil => intro a ha; simp at ha
  | cons x rest ih =>
    intro a ha b hb hab hr
    rw [List.map_cons, List.mem_cons] at ha hb
    obtain ⟨⟨row, h1, h2⟩, h3⟩ := h
    rcases ha with rfl | ha
    · rcases hb with rfl | hb
      · exact absurd rfl hab
      · exact .inl (key x rest row h1 h2 b hb hr)
    · rcases hb with rfl | hb
      · exact .inr (key x rest row h1 h2 a ha ((reaches_congr (by intro s; simp [or_comm])).1 hr))
      · exact ih h3 a ha b hb hab hr

theorem RowsOK.full {L : I.Laws} {cfg : VLSDConfig} {M : VMatrix Seq} {S : List (VList Selector Seq)} (h : RowsOK L cfg df target M S) :
    MatrixFull cfg df target (S.map lst) M := by
  intro a ha b hb hab hr
  have he := h.entries
  unfold VMatrix.query
  cases h1 : (M.lookup a).bind (fun r => r.lookup b) with
  | some m =>
    refine ⟨m, rfl, ?_⟩
    obtain ⟨row, hrow, hm⟩ := Option.bind_eq_some_iff.1 h1
    exact he a ha row hrow _ (mem_of_lookup hm)
  | none =>
    simp only
    rcases h.pairs a ha b hb hab hr with ⟨row, v, r1, r2⟩ | ⟨row, v, r1, r2⟩
    · rw [r1] at h1
      simp only [Option.bind_some] at h1
      rw [r2] at h1; cases h1
    · exact ⟨v, by rw [r1]; exact r2, he b hb row r1 _ (mem_of_lookup r2)⟩

theorem handle_all {L : I.Laws} {cfg : VLSDConfig} (hn : NoErr L cfg df target) (P : List (VList Selector Seq))
    (h : ∀ v ∈ P, Repr L cfg df target v) (st : VLState Seq) :
    ∃ st', P.foldlM (cfg.handle target (tpOf df target []) (fpOf df target [])) st = .ok st' := by
  induction P generalizing st with
  | nil => exact ⟨st, rfl⟩
  | cons v P ih =>
    obtain ⟨st1, h1⟩ := hn.2 st v (h v (by simp))
    rw [List.foldlM_cons, h1]
    exact ih (fun v hv => h v (by simp [hv])) st1

theorem level2_spec {L : I.Laws} {cfg : VLSDConfig} (hc : CfgOK cfg) {M : VMatrix Seq} {base : List Selector}
    (hM : MatrixFull cfg df target base M) (S : List (VList Selector Seq)) (hl : Level L cfg df target [] S) (hn : (S.map lst).Nodup)
    (hb : ∀ s ∈ S.map lst, s ∈ base) (hR : RowsOK L cfg df target M S) (st : VLState Seq) :
    (∀ st', VLSDConfig.level2 I cfg target (tpOf df target []) (fpOf df target []) M S st = .ok st' →
      ∃ C, C.foldlM (cfg.handle target (tpOf df target []) (fpOf df target [])) st = .ok st' ∧
        SearchSpec L cfg df target [] (S.map lst) C) ∧
    (NoErr L cfg df target → ∃ st', VLSDConfig.level2 I cfg target (tpOf df target []) (fpOf df target []) M S st = .ok st') := by
  induction S generalizing st with
  | nil =>
    refine ⟨fun st' h => ?_, fun _ => ⟨_, rfl⟩⟩
    simp only [VLSDConfig.level2, Except.ok.injEq] at h
    subst h
    exact ⟨[], rfl, SearchSpec.nil _ _ _ _ _⟩
  | cons x rest ih =>
    rw [List.map_cons] at hn hb ⊢
    rw [List.nodup_cons] at hn
    have hl' : Level L cfg df target [] rest := fun v hv => hl v (by simp [hv])
    have hx := hl x (by simp)
    have hxl : x.sels.getLast? = some (lst x) := by conv_lhs => rw [hx.2]
                                                    simp
    obtain ⟨⟨row, h1, h2⟩, h3⟩ := hR
    have ih := ih hl' hn.2 (fun s hs => hb s (List.mem_cons_of_mem _ hs)) h3
    have hVc : ∀ b ∈ rest.map lst, AllReach cfg df target ([] ++ [lst x] ++ [b]) → b ∈ (row.map (·.2)).map lst := by
      intro b hb hall
      rw [← h2.keys]
      exact h2.full b hb (hall _ (by simp) (by simp))
    unfold VLSDConfig.level2
    rw [hxl]
    simp only
    by_cases hr0 : row = []
    · rw [if_pos hr0] at h1
      rw [h1]
      simp only
      refine ⟨fun st' h => ?_, (ih st).2⟩
      obtain ⟨C, c1, c2⟩ := (ih st).1 st' h
      refine ⟨C, c1, ?_⟩
      have := SearchSpec.step (V := []) (C1 := []) (a := lst x) hn.1 (by simp) (by simp) (by intro v hv; simp at hv) (by simp) (by simp)
        (by intro b hb hall; have := hVc b hb hall; rw [hr0] at this; exact this) (SearchSpec.nil _ _ _ _ _) c2
      simpa using this
    · rw [if_neg hr0] at h1
      rw [h1]
      simp only
      have hperm : (cfg.sortOther.sort (row.map (·.2))).Perm (row.map (·.2)) := sort_perm _ _
      have hlm := hperm.map lst
      have hlev : Level L cfg df target ([] ++ [lst x]) (cfg.sortOther.sort (row.map (·.2))) := fun v hv => h2.level v (hperm.mem_iff.1 hv)
      have hnd : ((cfg.sortOther.sort (row.map (·.2))).map lst).Nodup := by
        rw [hlm.nodup_iff, ← h2.keys]; exact h2.sub.nodup hn.2
      have hsub : ∀ b ∈ (cfg.sortOther.sort (row.map (·.2))).map lst, b ∈ rest.map lst := by
        intro b hb
        rw [hlm.mem_iff, ← h2.keys] at hb
        exact h2.sub.subset hb
      cases hh : (cfg.sortOther.sort (row.map (·.2))).foldlM (cfg.handle target (tpOf df target []) (fpOf df target [])) st with
      | error e =>
        refine ⟨fun st' h => by simp at h, fun hne => ?_⟩
        obtain ⟨r, hr⟩ := handle_all hne _ (fun v hv => (hlev v hv).1) st
        rw [hh] at hr; cases hr
      | ok st1 =>
        obtain ⟨s1, s2⟩ := search_spec hc hM (cfg.sortOther.sort (row.map (·.2))).length (cfg.sortOther.sort (row.map (·.2))) ([] ++ [lst x]) st1
          (le_refl _) hlev (by simp) hnd (by
            intro s hs
            simp only [List.nil_append, List.mem_singleton]
            rintro rfl
            exact hn.1 (hsub _ hs)) (fun s hs => hb s (List.mem_cons_of_mem _ (hsub s hs)))
        simp only
        cases hs : VLSDConfig.search I cfg target (tpOf df target []) (fpOf df target []) M (cfg.sortOther.sort (row.map (·.2))) st1 with
        | error e =>
          refine ⟨fun st' h => by simp at h, fun hne => ?_⟩
          obtain ⟨r, hr⟩ := s2 hne
          rw [hs] at hr; cases hr
        | ok st2 =>
          simp only
          refine ⟨fun st' h => ?_, (ih st2).2⟩
          obtain ⟨C1, c1, c2⟩ := s1 st2 hs
          obtain ⟨C2, c3, c4⟩ := (ih st2).1 st' h
          refine ⟨_, foldlM_append_ok (foldlM_append_ok hh c1) c3, ?_⟩
          exact SearchSpec.step hn.1 (by simp) (by simp) hlev hnd hsub (by
            intro b hb hall
            rw [hlm.mem_iff]
            exact hVc b hb hall) c2 c4

/-- everything about one `fit` -/
theorem vlsd_fit_spec (L : I.Laws) {cfg : VLSDConfig} (hc : CfgOK cfg) (hf : NominalFrame df target) (st : VLState Seq) :
    (∀ st', cfg.fit I st df target = .ok st' →
      ∃ S1 C, (S1 ++ C).foldlM (cfg.handle target (tpOf df target []) (fpOf df target [])) { st with file := [] } = .ok st' ∧
        Level L cfg df target [] S1 ∧ (S1.map lst).Nodup ∧ (∀ s ∈ S1.map lst, IsSel target s) ∧
        (∀ s, IsSel target s → Reaches cfg df target [s] → s ∈ S1.map lst) ∧
        SearchSpec L cfg df target [] (S1.map lst) C) ∧
    (NoErr L cfg df target → ∃ st', cfg.fit I st df target = .ok st') := by
  obtain ⟨mask, m1, m2, m3⟩ := targetMask_ok hf
  obtain ⟨k1, k2⟩ := count_true_mask hf m2 m3
  unfold VLSDConfig.fit
  rw [nominal_of hf, m1]
  simp only [Bool.not_true, Bool.false_eq_true, if_false, k1]
  rw [← k1, k2, k1]
  obtain ⟨a1, a2⟩ := s1_spec (L := L) (cfg := cfg) hf ⟨m2, m3⟩
  cases hs : cfg.s1 I df target.1 mask (tpOf df target []) (fpOf df target []) with
  | error e =>
    refine ⟨fun st' h => by simp at h, fun hne => ?_⟩
    obtain ⟨r, hr⟩ := a2 hne
    rw [hs] at hr; cases hr
  | ok S1 =>
    obtain ⟨b1, b2, b3, b4⟩ := a1 S1 hs
    simp only
    cases hh : S1.foldlM (cfg.handle target (tpOf df target []) (fpOf df target [])) { st with file := [] } with
    | error e =>
      refine ⟨fun st' h => by simp at h, fun hne => ?_⟩
      obtain ⟨r, hr⟩ := handle_all hne S1 (fun v hv => (b1 v hv).1) { st with file := [] }
      rw [hh] at hr; cases hr
    | ok st1 =>
      simp only
      obtain ⟨c1, c2⟩ := matrix_spec hc S1 b1 b2
      cases hM : cfg.matrix I (tpOf df target []) (fpOf df target []) S1 with
      | error e =>
        refine ⟨fun st' h => by simp at h, fun hne => ?_⟩
        obtain ⟨r, hr⟩ := c2 hne
        rw [hM] at hr; cases hr
      | ok M =>
        obtain ⟨_, d2⟩ := c1 M hM
        simp only
        obtain ⟨e1, e2⟩ := level2_spec hc d2.full S1 b1 b2 (fun s hs => hs) d2 st1
        refine ⟨fun st' h => ?_, e2⟩
        obtain ⟨C, f1, f2⟩ := e1 st' h
        exact ⟨S1, C, foldlM_append_ok hh f1, b1, b2, b3, b4, f2⟩

end
end Verif
