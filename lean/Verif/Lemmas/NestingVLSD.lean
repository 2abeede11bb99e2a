import Verif.Lemmas.Nesting
import Verif.Lemmas.VLSDFit
/-! How many calls of VLSD are open at once. -/
namespace Verif.Nesting
open Classical Spec

variable {Seq : Type} {I : VLImpl Seq} {df : Frame} {target : Str × Str}

theorem handle_calls {cfg : VLSDConfig} {TP FP : Nat} (V : List (VList Selector Seq)) {st st' : VLState Seq}
    (h : V.foldlM (cfg.handle target TP FP) st = .ok st') : st'.calls = st.calls ++ V := by
  induction V generalizing st with
  | nil => cases h; simp
  | cons v V ih =>
    rw [foldlM_ok_cons] at h
    cases hv : cfg.handle target TP FP st v with
    | error e => rw [hv] at h; cases h
    | ok s1 =>
      rw [hv] at h
      rw [ih h]
      unfold VLSDConfig.handle at hv
      split at hv
      · cases hv
      · split at hv <;> (cases hv; simp)

/-- `_search` on lists of `pre.length + 1` selectors opens at most one call per column that is still free; a run that does not
overflow evaluates descriptions with at most `b` more selectors -/
theorem search_within {L : I.Laws} {cfg : VLSDConfig} (hc : CfgOK cfg) (hf : NominalFrame df target) {M : VMatrix Seq} {base : List Selector}
    (hM : MatrixFull cfg df target base M) (hb : ∀ s ∈ base, IsSel target s) (b : Nat) :
    ∀ (P : List (VList Selector Seq)) (pre : List Selector) (st : VLState Seq), P ≠ [] → Level L cfg df target pre P →
      pre.Nodup → (∀ s ∈ pre, IsSel target s) → (P.map lst).Nodup → (∀ s ∈ P.map lst, s ∉ pre) → (∀ s ∈ P.map lst, s ∈ base) →
      Within (df.cols.length - 1 - pre.length) b (search I cfg target (tpOf df target []) (fpOf df target []) M b P st)
        (VLSDConfig.search I cfg target (tpOf df target []) (fpOf df target []) M P st) ∧
      ∀ st', search I cfg target (tpOf df target []) (fpOf df target []) M b P st = .ok st' →
        ∀ v ∈ st'.calls, v ∈ st.calls ∨ v.sels.length ≤ pre.length + 1 + b := by
  induction b with
  | zero =>
    intro P pre st hne hlev hpre hsel hnd hdis hbase
    refine ⟨.inr ⟨rfl, ?_⟩, fun st' h => by cases h⟩
    obtain ⟨v, P, rfl⟩ := List.exists_cons_of_ne_nil hne
    obtain ⟨hv, hvs⟩ := hlev v (by simp)
    have := length_lt_cols (X := v.sels) hf (by
      rw [hvs, List.nodup_append]
      refine ⟨hpre, by simp, ?_⟩
      intro s hs t ht
      rw [List.mem_singleton.1 ht]
      rintro rfl
      exact hdis _ (by simp) hs) hv.occurs (by
      intro s hs
      rw [hvs, List.mem_append, List.mem_singleton] at hs
      rcases hs with hs | rfl
      · exact hsel s hs
      · exact hb _ (hbase _ (by simp)))
    rw [hvs] at this
    simp only [List.length_append, List.length_cons, List.length_nil] at this
    omega
  | succ b ih =>
    intro P pre st hne hlev hpre hsel hnd hdis hbase
    -- the need is positive, so a failing inner call is below it
    have key : ∀ (Q : List (VList Selector Seq)) (st : VLState Seq), Level L cfg df target pre Q → (Q.map lst).Nodup →
        (∀ s ∈ Q.map lst, s ∉ pre) → (∀ s ∈ Q.map lst, s ∈ base) →
        Within (df.cols.length - 1 - pre.length) (b + 1)
          (searchLoop I cfg target (tpOf df target []) (fpOf df target []) M (search I cfg target (tpOf df target []) (fpOf df target []) M b) Q st)
          (VLSDConfig.search I cfg target (tpOf df target []) (fpOf df target []) M Q st) ∧
        ∀ st', searchLoop I cfg target (tpOf df target []) (fpOf df target []) M (search I cfg target (tpOf df target []) (fpOf df target []) M b) Q st
            = .ok st' → ∀ v ∈ st'.calls, v ∈ st.calls ∨ v.sels.length ≤ pre.length + 1 + (b + 1) := by
      intro Q
      induction Q with
      | nil =>
        intro st _ _ _ _
        refine ⟨.inl ?_, ?_⟩
        · rw [VLSDConfig.search]; rfl
        · intro st' h
          cases h
          exact fun v hv => .inl hv
      | cons x rest ih2 =>
        intro st hlev hnd hdis hbase
        rw [List.map_cons] at hnd hdis hbase
        have hnd' := List.nodup_cons.1 hnd
        obtain ⟨hx, hxs⟩ := hlev x (by simp)
        have hlev' : Level L cfg df target pre rest := fun v hv => hlev v (by simp [hv])
        obtain ⟨j1, j2⟩ := joinRight_spec hc hM hx hxs (hbase _ (by simp)) rest hlev'
          (fun v hv => hbase _ (List.mem_cons_of_mem _ (List.mem_map_of_mem hv)))
          (fun v hv h => hnd'.1 (by rw [← h]; exact List.mem_map_of_mem hv)) st
        rw [VLSDConfig.search, searchLoop]
        cases hj : VLSDConfig.joinRight I cfg target (tpOf df target []) (fpOf df target []) M x rest st with
        | error e => exact ⟨.inl rfl, fun st' h => by cases h⟩
        | ok r =>
          obtain ⟨st1, V⟩ := r
          obtain ⟨v1, v2, v3, v4⟩ := j1 st1 V hj
          have hcalls := handle_calls V v3
          have hperm : (cfg.sortOther.sort V).Perm V := sort_perm _ _
          have hlm : ((cfg.sortOther.sort V).map lst).Perm (V.map lst) := hperm.map _
          have hVnd : (V.map lst).Nodup := v2.nodup hnd'.2
          have hVx : ∀ b ∈ V.map lst, b ∈ rest.map lst := fun b hb => v2.subset hb
          have hpre' : (pre ++ [lst x]).Nodup := by
            rw [List.nodup_append]
            refine ⟨hpre, by simp, ?_⟩
            intro s hs t ht
            simp only [List.mem_singleton] at ht
            rintro rfl
            rw [ht] at hs
            exact hdis _ (by simp) hs
          have hVlen : ∀ v ∈ V, v.sels.length ≤ pre.length + 1 + (b + 1) := by
            intro v hv
            rw [(v1 v hv).2]
            simp only [List.length_append, List.length_cons, List.length_nil]
            omega
          have sV : Within (df.cols.length - 1 - pre.length) (b + 1)
              (if V = [] then Except.ok st1 else search I cfg target (tpOf df target []) (fpOf df target []) M b (cfg.sortOther.sort V) st1)
              (if V = [] then Except.ok st1 else VLSDConfig.search I cfg target (tpOf df target []) (fpOf df target []) M (cfg.sortOther.sort V) st1) ∧
              ∀ st', (if V = [] then Except.ok st1 else search I cfg target (tpOf df target []) (fpOf df target []) M b (cfg.sortOther.sort V) st1) = .ok st' →
                ∀ v ∈ st'.calls, v ∈ st.calls ∨ v.sels.length ≤ pre.length + 1 + (b + 1) := by
            have base0 : ∀ v ∈ st1.calls, v ∈ st.calls ∨ v.sels.length ≤ pre.length + 1 + (b + 1) := by
              intro v hv
              rw [hcalls, List.mem_append] at hv
              exact hv.imp_right (hVlen v)
            by_cases hV0 : V = []
            · rw [if_pos hV0, if_pos hV0]
              exact ⟨.inl rfl, fun st' h => by cases h; exact base0⟩
            · rw [if_neg hV0, if_neg hV0]
              obtain ⟨s1, s2⟩ := ih (cfg.sortOther.sort V) (pre ++ [lst x]) st1
                (by
                  intro h
                  apply hV0
                  have := VLSDConfig.sort_length cfg.sortOther V
                  rw [h] at this
                  exact List.length_eq_zero_iff.1 this.symm)
                (fun v hv => v1 v (hperm.mem_iff.1 hv)) hpre'
                (by
                  intro s hs
                  rw [List.mem_append, List.mem_singleton] at hs
                  rcases hs with hs | rfl
                  · exact hsel s hs
                  · exact hb _ (hbase _ (by simp)))
                (hlm.nodup_iff.2 hVnd)
                (by
                  intro s hs
                  have hs' := hVx s (hlm.mem_iff.1 hs)
                  simp only [List.mem_append, List.mem_singleton]
                  rintro (h | h)
                  · exact hdis s (List.mem_cons_of_mem _ hs') h
                  · rw [h] at hs'; exact hnd'.1 hs')
                (fun s hs => hbase s (List.mem_cons_of_mem _ (hVx s (hlm.mem_iff.1 hs))))
              simp only [List.length_append, List.length_cons, List.length_nil] at s1 s2
              refine ⟨s1.mono (by omega), fun st' h v hv => ?_⟩
              rcases s2 st' h v hv with h1 | h1
              · exact base0 v h1
              · right; omega
          simp only
          generalize (if V = [] then Except.ok st1 else search I cfg target (tpOf df target []) (fpOf df target []) M b (cfg.sortOther.sort V) st1) = r1 at sV ⊢
          generalize (if V = [] then Except.ok st1 else VLSDConfig.search I cfg target (tpOf df target []) (fpOf df target []) M (cfg.sortOther.sort V) st1) = r2 at sV ⊢
          obtain ⟨w1, w2⟩ := sV
          have ih3 := fun st => ih2 st hlev' hnd'.2 (fun s hs => hdis s (List.mem_cons_of_mem _ hs)) (fun s hs => hbase s (List.mem_cons_of_mem _ hs))
          constructor
          · rcases w1 with rfl | ⟨rfl, h⟩
            · cases r2 with
              | error e => exact .inl rfl
              | ok st2 => exact (ih3 st2).1
            · exact .inr ⟨rfl, h⟩
          · intro st' h
            cases r1 with
            | error e => cases h
            | ok st2 =>
              intro v hv
              rcases (ih3 st2).2 st' h v hv with h1 | h1
              · exact w2 st2 rfl v h1
              · exact .inr h1
    unfold search
    exact key P st hlev hnd hdis hbase

theorem level2_within {L : I.Laws} {cfg : VLSDConfig} (hc : CfgOK cfg) (hf : NominalFrame df target) {M : VMatrix Seq} {base : List Selector}
    (hM : MatrixFull cfg df target base M) (hsel : ∀ s ∈ base, IsSel target s) (b : Nat)
    (S : List (VList Selector Seq)) (hl : Level L cfg df target [] S) (hn : (S.map lst).Nodup)
    (hb : ∀ s ∈ S.map lst, s ∈ base) (hR : RowsOK L cfg df target M S) (st : VLState Seq) :
    Within (df.cols.length - 2) b (level2 I cfg target (tpOf df target []) (fpOf df target []) M b S st)
      (VLSDConfig.level2 I cfg target (tpOf df target []) (fpOf df target []) M S st) ∧
    ∀ st', level2 I cfg target (tpOf df target []) (fpOf df target []) M b S st = .ok st' →
      ∀ v ∈ st'.calls, v ∈ st.calls ∨ v.sels.length ≤ 2 + b := by
  induction S generalizing st with
  | nil => exact ⟨.inl rfl, fun st' h v hv => by cases h; exact .inl hv⟩
  | cons x rest ih =>
    rw [List.map_cons] at hn hb
    rw [List.nodup_cons] at hn
    have hl' : Level L cfg df target [] rest := fun v hv => hl v (by simp [hv])
    have hx := hl x (by simp)
    have hxl : x.sels.getLast? = some (lst x) := by conv_lhs => rw [hx.2]
                                                    simp
    obtain ⟨⟨row, h1, h2⟩, h3⟩ := hR
    have ih := ih hl' hn.2 (fun s hs => hb s (List.mem_cons_of_mem _ hs)) h3
    unfold VLSDConfig.level2 level2
    rw [hxl]
    simp only
    by_cases hr0 : row = []
    · rw [if_pos hr0] at h1
      rw [h1]
      exact ih st
    · rw [if_neg hr0] at h1
      rw [h1]
      simp only
      have hperm : (cfg.sortOther.sort (row.map (·.2))).Perm (row.map (·.2)) := sort_perm _ _
      have hlm := hperm.map lst
      have hlev : Level L cfg df target ([] ++ [lst x]) (cfg.sortOther.sort (row.map (·.2))) := fun v hv => h2.level v (hperm.mem_iff.1 hv)
      have hnd : ((cfg.sortOther.sort (row.map (·.2))).map lst).Nodup := by
        rw [hlm.nodup_iff, ← h2.keys]; exact h2.sub.nodup hn.2
      have hsub : ∀ b ∈ (cfg.sortOther.sort (row.map (·.2))).map lst, b ∈ rest.map lst := by
        intro b hb
        rw [hlm.mem_iff, ← h2.keys] at hb
        exact h2.sub.subset hb
      cases hh : (cfg.sortOther.sort (row.map (·.2))).foldlM (cfg.handle target (tpOf df target []) (fpOf df target [])) st with
      | error e => exact ⟨.inl rfl, fun st' h => by cases h⟩
      | ok st1 =>
        have hcalls := handle_calls _ hh
        have hne : cfg.sortOther.sort (row.map (·.2)) ≠ [] := by
          intro h
          have := hperm.length_eq
          rw [h, List.length_map] at this
          exact hr0 (List.length_eq_zero_iff.1 this.symm)
        obtain ⟨s1, s2⟩ := search_within hc hf hM hsel b (cfg.sortOther.sort (row.map (·.2))) ([] ++ [lst x]) st1 hne hlev (by simp)
          (by
            intro s hs
            rw [List.nil_append, List.mem_singleton] at hs
            rw [hs]
            exact hsel _ (hb _ (by simp))) hnd (by
            intro s hs
            simp only [List.nil_append, List.mem_singleton]
            rintro rfl
            exact hn.1 (hsub _ hs)) (fun s hs => hb s (List.mem_cons_of_mem _ (hsub s hs)))
        simp only [List.nil_append, List.length_cons, List.length_nil] at s1 s2
        have base0 : ∀ v ∈ st1.calls, v ∈ st.calls ∨ v.sels.length ≤ 2 + b := by
          intro v hv
          rw [hcalls, List.mem_append] at hv
          refine hv.imp_right (fun hv => ?_)
          rw [(hlev v hv).2]
          simp only [List.nil_append, List.length_append, List.length_cons, List.length_nil]
          omega
        simp only
        generalize search I cfg target (tpOf df target []) (fpOf df target []) M b (cfg.sortOther.sort (row.map (·.2))) st1 = r1 at s1 s2 ⊢
        generalize VLSDConfig.search I cfg target (tpOf df target []) (fpOf df target []) M (cfg.sortOther.sort (row.map (·.2))) st1 = r2 at s1 ⊢
        constructor
        · rcases s1 with rfl | ⟨rfl, h⟩
          · cases r2 with
            | error e => exact .inl rfl
            | ok st2 => exact (ih st2).1
          · exact .inr ⟨rfl, by omega⟩
        · intro st' h
          cases r1 with
          | error e => cases h
          | ok st2 =>
            intro v hv
            rcases (ih st2).2 st' h v hv with h1 | h1
            · rcases s2 st2 rfl v h1 with h1 | h1
              · exact base0 v h1
              · right; omega
            · exact .inr h1

theorem vlsdFit_within (L : I.Laws) {cfg : VLSDConfig} (hc : CfgOK cfg) (hf : NominalFrame df target) (b : Nat) (st : VLState Seq) :
    Within (df.cols.length - 2) b (vlsdFit I cfg b st df target) (cfg.fit I st df target) ∧
    ∀ st', vlsdFit I cfg b st df target = .ok st' → ∀ v ∈ st'.calls, v ∈ st.calls ∨ v.sels.length ≤ 2 + b := by
  obtain ⟨mask, hm0, hm1, hm2⟩ := targetMask_ok hf
  obtain ⟨hc1, hc2⟩ := count_true_mask hf hm1 hm2
  unfold vlsdFit VLSDConfig.fit
  rw [nominal_of hf, hm0]
  simp only [Bool.not_true, Bool.false_eq_true, if_false]
  rw [hc2, hc1]
  cases hs : cfg.s1 I df target.1 mask (tpOf df target []) (fpOf df target []) with
  | error e => exact ⟨.inl rfl, fun st' h => by cases h⟩
  | ok S1 =>
    obtain ⟨s1, s2, s3, s4⟩ := (s1_spec (L := L) hf ⟨hm1, hm2⟩).1 S1 hs
    simp only
    cases hh : S1.foldlM (cfg.handle target (tpOf df target []) (fpOf df target [])) { st with file := [] } with
    | error e => exact ⟨.inl rfl, fun st' h => by cases h⟩
    | ok st1 =>
      have hcalls := handle_calls _ hh
      simp only
      cases hM : cfg.matrix I (tpOf df target []) (fpOf df target []) S1 with
      | error e => exact ⟨.inl rfl, fun st' h => by cases h⟩
      | ok M =>
        obtain ⟨m1, m2⟩ := (matrix_spec (L := L) hc S1 s1 s2).1 M hM
        obtain ⟨w1, w2⟩ := level2_within (L := L) hc hf m2.full s3 b S1 s1 s2 (fun s hs => hs) m2 st1
        refine ⟨w1, fun st' h v hv => ?_⟩
        rcases w2 st' h v hv with h1 | h1
        · rw [hcalls, List.mem_append] at h1
          refine h1.imp_right (fun h1 => ?_)
          rw [(s1 v h1).2]
          simp
          omega
        · exact .inr h1

end Verif.Nesting
