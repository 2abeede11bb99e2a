import Verif.Lemmas.Nesting
import Verif.Lemmas.BSDFit
import Verif.Lemmas.IDSDFit
/-! How many calls of BSD and of IDSD are open at once. -/
namespace Verif.Nesting
open Classical Spec

section
open BSD
variable {cfg : BSDConfig} {df : Frame} {target : Str × Str}

theorem insert_calls {v : BSDVariant} {num : Nat} {st st' : BSDState} {c : BSDEntry} {p n : Bits} (h : BSD.insert v num st c p n = .ok st') :
    st'.calls = st.calls := by
  unfold BSD.insert at h
  split at h
  · cases h
  · split at h
    · split at h
      · cases h
      · cases h; rfl
    · cases h; rfl

theorem bsd_handle_calls {v : BSDVariant} {num : Nat} {st st' : BSDState} {c : BSDEntry} {p n : Bits} {k : Bool}
    (h : BSD.handle v num st c p n = .ok (st', k)) : st'.calls = st.calls ++ [c] := by
  unfold BSD.handle at h
  simp only at h
  split at h
  · cases h
  · split at h
    · split at h
      · split at h
        · cases h
        · cases h; rfl
        · split at h
          · cases h
          · rename_i h1
            cases h
            exact (insert_calls h1).trans rfl
        · split at h
          · cases h
          · rename_i h1
            cases h
            exact (insert_calls h1).trans rfl
      · cases h; rfl
    · cases h; rfl

/-- what the first loop keeps -/
theorem level_keeps {B : Dict Bits × Dict Bits} {F : List Selector} (hB : BitsOK B df target F) {cond : Pattern} (hc : CondOK F cond) (TP FP : Nat)
    (sel : List Selector) (hsF : ∀ s ∈ sel, s ∈ F) (st st' : BSDState) (new : List (Rat × Selector))
    (h : cfg.level B TP FP cond (bitsFor df (posRows df target) cond.sels) (bitsFor df (negRows df target) cond.sels) sel st = .ok (st', new)) :
    (new.map (·.2)).Sublist sel ∧ (∀ s ∈ new.map (·.2), OccursIn df (extend cond s).sels) ∧
      ∀ e ∈ st'.calls, e ∈ st.calls ∨ ∃ s ∈ sel, e.pat = extend cond s := by
  induction sel generalizing st new with
  | nil =>
    cases h
    exact ⟨by simp, by simp, fun e he => .inl he⟩
  | cons s rest ih =>
    have hs := hsF s (by simp)
    have hrest : ∀ t ∈ rest, t ∈ F := fun t ht => hsF t (by simp [ht])
    unfold BSDConfig.level at h
    rw [candBits_ok hB hc hs] at h
    simp only [ones_bitsFor_pos, ones_bitsFor_neg] at h
    by_cases h0 : tpOf df target (extend cond s).sels + fpOf df target (extend cond s).sels = 0
    · rw [if_pos h0] at h
      obtain ⟨a1, a2, a3⟩ := ih hrest _ _ h
      exact ⟨a1.trans (List.sublist_cons_self _ _), a2, fun e he => (a3 e he).imp_right (fun ⟨t, ht, h⟩ => ⟨t, by simp [ht], h⟩)⟩
    · rw [if_neg h0] at h
      have hocc : OccursIn df (extend cond s).sels := occurs_iff.1 (by omega : 0 < tpOf df target (extend cond s).sels + fpOf df target (extend cond s).sels)
      split at h
      · cases h
      · split at h
        · cases h
        · split at h
          · cases h
          · rename_i st1 kept hh
            have hcl := bsd_handle_calls hh
            split at h
            · cases h
            · rename_i hl
              cases h
              obtain ⟨a1, a2, a3⟩ := ih hrest _ _ hl
              refine ⟨?_, ?_, ?_⟩
              · split
                · rw [List.map_cons]; exact a1.cons_cons _
                · exact a1.trans (List.sublist_cons_self _ _)
              · split
                · intro t ht
                  rw [List.map_cons, List.mem_cons] at ht
                  rcases ht with rfl | ht
                  · exact hocc
                  · exact a2 t ht
                · exact a2
              · intro e he
                rcases a3 e he with h1 | ⟨t, ht, h1⟩
                · rw [hcl, List.mem_append, List.mem_singleton] at h1
                  rcases h1 with h1 | rfl
                  · exact .inl h1
                  · exact .inr ⟨s, by simp, rfl⟩
                · exact .inr ⟨t, by simp [ht], h1⟩

theorem branch_within {B : Dict Bits × Dict Bits} {F : List Selector} (hB : BitsOK B df target F)
    {cond : Pattern} (hc : CondOK F cond) (need b M : Nat)
    {callN : Pattern → List Selector → Bits → Bits → BSDState → Except Fail BSDState}
    {call : Pattern → List Selector → Bits → Bits → BSDState → Except PyErr BSDState}
    (hcall : ∀ s sel st, s ∈ F → s ∉ cond.sels → OccursIn df (extend cond s).sels → CondOK F (extend cond s) → (∀ t ∈ sel, t ∈ F) → sel.Nodup →
      (∀ t ∈ sel, t ∉ (extend cond s).sels) →
      Within need b (callN (extend cond s) sel (bitsFor df (posRows df target) (extend cond s).sels) (bitsFor df (negRows df target) (extend cond s).sels) st)
        (call (extend cond s) sel (bitsFor df (posRows df target) (extend cond s).sels) (bitsFor df (negRows df target) (extend cond s).sels) st) ∧
      ∀ st', callN (extend cond s) sel (bitsFor df (posRows df target) (extend cond s).sels) (bitsFor df (negRows df target) (extend cond s).sels) st = .ok st' →
        ∀ e ∈ st'.calls, e ∈ st.calls ∨ e.pat.sels.length ≤ M)
    (rest : List (Rat × Selector)) (aux : List Selector) (haF : ∀ s ∈ aux, s ∈ F) (hnd : aux.Nodup) (hdis : ∀ s ∈ aux, s ∉ cond.sels)
    (hra : ∀ s ∈ rest.map (·.2), s ∈ aux) (hrn : (rest.map (·.2)).Nodup) (hro : ∀ s ∈ rest.map (·.2), OccursIn df (extend cond s).sels)
    (st : BSDState) :
    Within need b (branch B callN cond (bitsFor df (posRows df target) cond.sels) (bitsFor df (negRows df target) cond.sels) rest aux st)
      (BSDConfig.branch B call cond (bitsFor df (posRows df target) cond.sels) (bitsFor df (negRows df target) cond.sels) rest aux st) ∧
    ∀ st', branch B callN cond (bitsFor df (posRows df target) cond.sels) (bitsFor df (negRows df target) cond.sels) rest aux st = .ok st' →
      ∀ e ∈ st'.calls, e ∈ st.calls ∨ e.pat.sels.length ≤ M := by
  induction rest generalizing aux st with
  | nil => exact ⟨.inl rfl, fun st' h e he => by cases h; exact .inl he⟩
  | cons os rest ih =>
    obtain ⟨o, s⟩ := os
    have hsaux : s ∈ aux := hra s (by simp)
    have hsF := haF s hsaux
    obtain ⟨e1, e2, e3⟩ := extend_spec hB.sel hc hsF
    have hrn' := List.nodup_cons.1 hrn
    have hsr : s ∉ rest.map (·.2) := hrn'.1
    have hro' : ∀ t ∈ rest.map (·.2), OccursIn df (extend cond t).sels := fun t ht => hro t (List.mem_cons_of_mem _ ht)
    unfold BSDConfig.branch branch
    cases hk : st.k with
    | nil => exact ⟨.inl rfl, fun st' h => by cases h⟩
    | cons e0 k' =>
      simp only
      by_cases hgt : o > e0.quality
      · simp only [if_pos hgt]
        rw [removeSel_ok (fun t ht => (hB.sel t (haF t ht)).2) hsaux, hB.pos s hsF, hB.neg s hsF]
        simp only
        rw [logicalAnd_eq (by simp only [length_bitsFor]), logicalAnd_eq (by simp only [length_bitsFor])]
        simp only
        rw [bitsFor_and e2, bitsFor_and e2]
        have haux' : ∀ t ∈ aux.erase s, t ∈ aux := fun t ht => List.mem_of_mem_erase ht
        have hsn : s ∉ aux.erase s := fun h => by
          rw [hnd.mem_erase_iff] at h; exact h.1 rfl
        have hmem : ∀ t, t ∈ aux → t ≠ s → t ∈ aux.erase s := fun t ht hts => (List.mem_erase_of_ne hts).2 ht
        obtain ⟨c1, c2⟩ := hcall s (aux.erase s) st hsF (hdis s hsaux) (hro s (by simp)) e1 (fun t ht => haF t (haux' t ht)) (hnd.erase s) (by
          intro t ht hh
          rcases (e2 t).1 hh with h | h
          · exact hdis t (haux' t ht) h
          · rw [List.mem_singleton] at h
            rw [h] at ht; exact hsn ht)
        have ihx := fun st1 => ih (aux.erase s) (fun t ht => haF t (haux' t ht)) (hnd.erase s) (fun t ht => hdis t (haux' t ht))
          (fun t ht => hmem t (hra t (List.mem_cons_of_mem _ ht)) (fun h => hsr (h ▸ ht))) hrn'.2 hro' st1
        generalize callN (extend cond s) (aux.erase s) (bitsFor df (posRows df target) (extend cond s).sels) (bitsFor df (negRows df target) (extend cond s).sels) st = r1 at c1 c2 ⊢
        generalize call (extend cond s) (aux.erase s) (bitsFor df (posRows df target) (extend cond s).sels) (bitsFor df (negRows df target) (extend cond s).sels) st = r2 at c1 ⊢
        constructor
        · rcases c1 with rfl | ⟨rfl, h⟩
          · cases r2 with
            | error e => exact .inl rfl
            | ok st2 => exact (ihx st2).1
          · exact .inr ⟨rfl, h⟩
        · intro st' h
          cases r1 with
          | error e => cases h
          | ok st2 =>
            intro e he
            rcases (ihx st2).2 st' h e he with h1 | h1
            · exact c2 st2 rfl e h1
            · exact .inr h1
      · simp only [if_neg hgt]
        have := ih aux haF hnd hdis (fun t ht => hra t (List.mem_cons_of_mem _ ht)) hrn'.2 hro'
          { st with pruned := st.pruned + 1, unselected := st.unselected + 1, branches := st.branches + 1 }
        simp only [hk] at this
        exact this

/-- `_BSD` opens at most one call per level and per column that is still free -/
theorem bsdSearch_within (hf : NominalFrame df target) {B : Dict Bits × Dict Bits} {F : List Selector} (hB : BitsOK B df target F) (TP FP b : Nat) :
    ∀ (d : Nat) (cond : Pattern) (sel : List Selector) (st : BSDState), CondOK F cond → cond.sels.length + 1 ≤ df.cols.length → (∀ s ∈ sel, s ∈ F) →
      sel.Nodup → (∀ s ∈ sel, s ∉ cond.sels) →
      Within (min d (df.cols.length - 1 - cond.sels.length) + 1) b
        (bsdSearch cfg B TP FP b d cond sel (bitsFor df (posRows df target) cond.sels) (bitsFor df (negRows df target) cond.sels) st)
        (cfg.search B TP FP d cond sel (bitsFor df (posRows df target) cond.sels) (bitsFor df (negRows df target) cond.sels) st) ∧
      ∀ st', bsdSearch cfg B TP FP b d cond sel (bitsFor df (posRows df target) cond.sels) (bitsFor df (negRows df target) cond.sels) st = .ok st' →
        ∀ e ∈ st'.calls, e ∈ st.calls ∨ e.pat.sels.length ≤ cond.sels.length + b := by
  induction b with
  | zero => intro d cond sel st _ _ _ _ _; exact ⟨.inr ⟨rfl, by omega⟩, fun st' h => by cases h⟩
  | succ b ih =>
    intro d cond sel st hc hlen hsF hnd hdis
    have heq : cfg.search B TP FP d cond sel (bitsFor df (posRows df target) cond.sels) (bitsFor df (negRows df target) cond.sels) st =
        match cfg.level B TP FP cond (bitsFor df (posRows df target) cond.sels) (bitsFor df (negRows df target) cond.sels) sel st with
        | .error e => .error e
        | .ok (st1, new) =>
          if d = 0 then .ok st1
          else BSDConfig.branch B (cfg.search B TP FP (d - 1)) cond (bitsFor df (posRows df target) cond.sels) (bitsFor df (negRows df target) cond.sels)
            (stableSort (fun a b => !BSDConfig.tupleLt a b) new) ((stableSort (fun a b => !BSDConfig.tupleLt a b) new).map (·.2)) st1 := by
      cases d <;> rfl
    rw [heq]
    unfold bsdSearch
    cases hl : cfg.level B TP FP cond (bitsFor df (posRows df target) cond.sels) (bitsFor df (negRows df target) cond.sels) sel st with
    | error e => exact ⟨.inl rfl, fun st' h => by cases h⟩
    | ok r =>
      obtain ⟨st1, new⟩ := r
      obtain ⟨l1, l2, l3⟩ := level_keeps hB hc TP FP sel hsF st st1 new hl
      have base0 : ∀ e ∈ st1.calls, e ∈ st.calls ∨ e.pat.sels.length ≤ cond.sels.length + (b + 1) := by
        intro e he
        refine (l3 e he).imp_right ?_
        rintro ⟨s, hs, h⟩
        rw [h, (extend_spec hB.sel hc (hsF s hs)).2.2 (hdis s hs)]
        omega
      simp only
      by_cases hd : d = 0
      · rw [if_pos hd, if_pos hd]
        exact ⟨.inl rfl, fun st' h => by cases h; exact base0⟩
      · rw [if_neg hd, if_neg hd]
        have hperm : (stableSort (fun a b => !BSDConfig.tupleLt a b) new).Perm new := stableSort_perm _
        have hpm := hperm.map (·.2)
        have hin : ∀ s ∈ (stableSort (fun a b => !BSDConfig.tupleLt a b) new).map (·.2), s ∈ sel := fun s hs => l1.subset (hpm.mem_iff.1 hs)
        obtain ⟨w1, w2⟩ := branch_within hB hc (min d (df.cols.length - 1 - cond.sels.length) + 1) (b + 1) (cond.sels.length + (b + 1))
          (callN := bsdSearch cfg B TP FP b (d - 1)) (call := cfg.search B TP FP (d - 1))
          (by
            intro s sel' st' hsF' hsn hocc hce h1 h2 h3
            have hl' := (extend_spec hB.sel hc hsF').2.2 hsn
            have hcols := length_lt_cols hf (nodup_of_sorted hce.1) hocc (fun t ht => hB.sel t (hce.2 t ht))
            obtain ⟨i1, i2⟩ := ih (d - 1) (extend cond s) sel' st' hce hcols h1 h2 h3
            rw [hl'] at i1 i2 hcols
            refine ⟨i1.mono (by omega), fun st'' h e he => ?_⟩
            refine (i2 st'' h e he).imp_right (fun h => by omega))
          (stableSort (fun a b => !BSDConfig.tupleLt a b) new) ((stableSort (fun a b => !BSDConfig.tupleLt a b) new).map (·.2))
          (fun s hs => hsF s (hin s hs)) (hpm.nodup_iff.2 (l1.nodup hnd)) (fun s hs => hdis s (hin s hs)) (fun s hs => hs)
          (hpm.nodup_iff.2 (l1.nodup hnd)) (fun s hs => l2 s (hpm.mem_iff.1 hs)) st1
        refine ⟨w1, fun st' h e he => ?_⟩
        rcases w2 st' h e he with h1 | h1
        · exact base0 e h1
        · exact .inr h1

theorem bsdFit_within (hf : NominalFrame df target) (ht : TextsFaithful df target) (b : Nat) (st : BSDState) :
    Within (min cfg.maxDepth (df.cols.length - 1) + 1) b (bsdFit cfg b st df target) (cfg.fit st df target) ∧
    ∀ st', bsdFit cfg b st df target = .ok st' → ∀ e ∈ st'.calls, e ∈ st.calls ∨ e.pat.sels.length ≤ b := by
  obtain ⟨mask, hm0, hm1, hm2⟩ := targetMask_ok hf
  have hm : MaskOK df target mask := ⟨hm1, hm2⟩
  have hF := frequent_spec (cfg := cfg) hf hm
  have hB := build_spec hf hm ht (F := BitsetBSD.frequent cfg.minSupport df target.1 mask) (fun s hs => ⟨((hF.mem s).1 hs).1, ((hF.mem s).1 hs).2.1⟩)
  have hcols : 1 ≤ df.cols.length := by
    obtain ⟨c, hc, _⟩ := List.mem_map.1 hf.target
    exact List.length_pos_of_mem hc
  obtain ⟨w1, w2⟩ := bsdSearch_within (cfg := cfg) hf hB (mask.count true) (df.nrows - mask.count true) b cfg.maxDepth ⟨[]⟩ (BitsetBSD.frequent cfg.minSupport df target.1 mask)
    st ⟨by simp [Pattern.Sorted], by simp⟩ (by simpa using hcols) (fun s h => h) hF.nodup (by simp)
  simp only [bitsFor_nil, List.length_nil, Nat.sub_zero, Nat.zero_add] at w1 w2
  unfold bsdFit BSDConfig.fit
  rw [nominal_of hf, hm0]
  simp only [Bool.not_true, Bool.false_eq_true, if_false]
  rw [rows_pos hm, rows_neg hm]
  generalize bsdSearch cfg (BitsetBSD.build df target.1 mask (BitsetBSD.frequent cfg.minSupport df target.1 mask)) (mask.count true) (df.nrows - mask.count true) b cfg.maxDepth ⟨[]⟩
    (BitsetBSD.frequent cfg.minSupport df target.1 mask) (List.replicate (posRows df target).length true) (List.replicate (negRows df target).length true) st = r1 at w1 w2 ⊢
  generalize cfg.search (BitsetBSD.build df target.1 mask (BitsetBSD.frequent cfg.minSupport df target.1 mask)) (mask.count true) (df.nrows - mask.count true) cfg.maxDepth ⟨[]⟩
    (BitsetBSD.frequent cfg.minSupport df target.1 mask) (List.replicate (posRows df target).length true) (List.replicate (negRows df target).length true) st = r2 at w1 ⊢
  constructor
  · rcases w1 with rfl | ⟨rfl, h⟩
    · cases r2 with
      | error e => exact .inl rfl
      | ok st1 =>
        left
        simp only [lift]
        cases st1.k <;> rfl
    · exact .inr ⟨rfl, h⟩
  · intro st' h
    cases r1 with
    | error e => cases h
    | ok st1 =>
      have := w2 st1 rfl
      simp only at h
      split at h
      · cases h
      · cases h
        exact this

end

section
open IDSD
variable {cfg : IDSDConfig} {df : Frame} {target : Str × Str}

theorem idsd_visit_calls {c TP FP : Nat} {mask : Bits} {p : Pattern} {app : Bits} {st st' : IDSDState} {go : Bool}
    (h : visit cfg c TP FP mask p app st = .ok (st', go)) :
    (go = true → p.len ≠ c) ∧ ∀ q ∈ st'.calls, q ∈ st.calls ∨ (q = p ∧ p.len = c) := by
  unfold visit at h
  simp only at h
  split at h
  · cases h
  · split at h
    · cases h; exact ⟨by simp, fun q hq => .inl hq⟩
    · split at h
      · cases h; exact ⟨by simp, fun q hq => .inl hq⟩
      · split at h
        · rename_i hlen
          split at h
          · cases h
          · rename_i hh
            cases h
            refine ⟨by simp, fun q hq => ?_⟩
            unfold IDSD.handle at hh
            simp only at hh
            split at hh
            · cases hh
            · cases hh
              simp only [List.mem_append, List.mem_singleton] at hq
              exact hq.imp_right (fun h => ⟨h, hlen⟩)
        · rename_i hlen
          cases h
          exact ⟨fun _ => hlen, fun q hq => .inl hq⟩

/-- `_grow_tree` opens one call per selector that can still be added -/
theorem growTree_within (c TP FP : Nat) (mask : Bits) (b : Nat) :
    ∀ (sels Y : List Selector) (app : Bits) (st : IDSDState), (∀ s ∈ Y ++ sels, TextEq s) → (Y ++ sels).Nodup → Y.length ≤ c →
      Within (c - Y.length + 1) b (growTree cfg c TP FP mask b sels (Pattern.new Y) app st)
        (IDSD.growTree cfg c TP FP mask sels (Pattern.new Y) app st) ∧
      ∀ st', growTree cfg c TP FP mask b sels (Pattern.new Y) app st = .ok st' →
        ∀ q ∈ st'.calls, q ∈ st.calls ∨ q.len + 1 ≤ Y.length + b := by
  induction b with
  | zero => intro sels Y app st _ _ _; exact ⟨.inr ⟨rfl, by omega⟩, fun st' h => by cases h⟩
  | succ b ih =>
    intro sels Y app st htext hnd hlen
    have hplen : (Pattern.new Y).len = Y.length := new_len (fun s hs => htext s (List.mem_append_left _ hs)) (hnd.sublist (List.sublist_append_left _ _))
    unfold growTree IDSD.growTree
    cases hv : visit cfg c TP FP mask (Pattern.new Y) app st with
    | error e => exact ⟨.inl rfl, fun st' h => by cases h⟩
    | ok r =>
      obtain ⟨st1, go⟩ := r
      obtain ⟨v1, v2⟩ := idsd_visit_calls hv
      have base0 : ∀ q ∈ st1.calls, q ∈ st.calls ∨ q.len + 1 ≤ Y.length + (b + 1) := by
        intro q hq
        refine (v2 q hq).imp_right ?_
        rintro ⟨rfl, _⟩
        rw [hplen]; omega
      cases go with
      | false => exact ⟨.inl rfl, fun st' h => by cases h; exact base0⟩
      | true =>
        have hlt : Y.length < c := by
          have := v1 rfl
          rw [hplen] at this
          omega
        simp only
        -- the loop
        have key : ∀ (l : List Selector) (st : IDSDState), (∀ s ∈ Y ++ l, TextEq s) → (Y ++ l).Nodup →
            Within (c - Y.length + 1) (b + 1) (growLoop (growTree cfg c TP FP mask b) l (Pattern.new Y) app st)
              (IDSD.growLoop cfg c TP FP mask l (Pattern.new Y) app st) ∧
            ∀ st', growLoop (growTree cfg c TP FP mask b) l (Pattern.new Y) app st = .ok st' →
              ∀ q ∈ st'.calls, q ∈ st.calls ∨ q.len + 1 ≤ Y.length + (b + 1) := by
          intro l
          induction l with
          | nil => intro st _ _; exact ⟨.inl rfl, fun st' h q hq => by cases h; exact .inl hq⟩
          | cons s rest ih2 =>
            intro st htext hnd
            -- the model of `IDSD` inlines the call
            have hcons : IDSD.growLoop cfg c TP FP mask (s :: rest) (Pattern.new Y) app st =
                match st.apps.lookup s with
                | none => .error .keyError
                | some bs => match IDSD.growTree cfg c TP FP mask rest ((Pattern.new Y).copy.add s) (app.alignAnd bs) st with
                  | .error e => .error e
                  | .ok st2 => IDSD.growLoop cfg c TP FP mask rest (Pattern.new Y) app st2 := by
              conv_lhs => unfold IDSD.growLoop
              unfold IDSD.growTree
              cases st.apps.lookup s with
              | none => rfl
              | some bs =>
                simp only
                cases visit cfg c TP FP mask ((Pattern.new Y).copy.add s) (app.alignAnd bs) st with
                | error e => rfl
                | ok r =>
                  obtain ⟨x, go⟩ := r
                  cases go with
                  | false => rfl
                  | true =>
                    simp only
                    cases IDSD.growLoop cfg c TP FP mask rest ((Pattern.new Y).copy.add s) (app.alignAnd bs) x <;> rfl
            rw [hcons]
            unfold growLoop
            cases ha : st.apps.lookup s with
            | none => exact ⟨.inl rfl, fun st' h => by cases h⟩
            | some bs =>
              simp only
              have hY : ∀ t ∈ Y, TextEq t := fun t ht => htext t (List.mem_append_left _ ht)
              rw [add_new hY (htext s (by simp))]
              obtain ⟨i1, i2⟩ := ih rest (Y ++ [s]) (app.alignAnd bs) st (by simpa using htext) (by simpa using hnd) (by simp; omega)
              simp only [List.length_append, List.length_cons, List.length_nil] at i1 i2
              have hsub : (Y ++ rest).Sublist (Y ++ s :: rest) := (List.Sublist.refl Y).append (List.sublist_cons_self _ _)
              have ihx := fun st => ih2 st (fun t ht => htext t (hsub.subset ht)) (hnd.sublist hsub)
              generalize growTree cfg c TP FP mask b rest (Pattern.new (Y ++ [s])) (app.alignAnd bs) st = r1 at i1 i2 ⊢
              generalize IDSD.growTree cfg c TP FP mask rest (Pattern.new (Y ++ [s])) (app.alignAnd bs) st = r2 at i1 ⊢
              constructor
              · rcases i1 with rfl | ⟨rfl, h⟩
                · cases r2 with
                  | error e => exact .inl rfl
                  | ok st2 => exact (ihx st2).1
                · exact .inr ⟨rfl, by omega⟩
              · intro st' h
                cases r1 with
                | error e => cases h
                | ok st2 =>
                  intro q hq
                  rcases (ihx st2).2 st' h q hq with h1 | h1
                  · refine (i2 st2 rfl q h1).imp_right (fun h => by omega)
                  · exact .inr h1
        obtain ⟨k1, k2⟩ := key sels st1 htext hnd
        refine ⟨k1, fun st' h q hq => ?_⟩
        rcases k2 st' h q hq with h1 | h1
        · exact base0 q h1
        · exact .inr h1

theorem deepen_within (TP FP : Nat) (mask : Bits) (sels : List Selector) (htext : ∀ s ∈ sels, TextEq s) (hnd : sels.Nodup) (n b m : Nat) :
    ∀ (cs : List Nat) (st : IDSDState), (∀ c ∈ cs, c ≤ m) →
      Within (m + 1) b (deepen cfg TP FP mask sels n b cs st) (IDSD.deepen cfg TP FP mask sels n cs st) ∧
      ∀ st', deepen cfg TP FP mask sels n b cs st = .ok st' → ∀ q ∈ st'.calls, q ∈ st.calls ∨ q.len + 1 ≤ b := by
  intro cs
  induction cs with
  | nil => intro st _; exact ⟨.inl rfl, fun st' h q hq => by cases h; exact .inl hq⟩
  | cons c cs ih =>
    intro st hm
    have hcm := hm c (by simp)
    obtain ⟨i1, i2⟩ := growTree_within (cfg := cfg) c TP FP mask b sels [] (List.replicate n true) st (by simpa using htext) (by simpa using hnd) (by simp)
    simp only [List.length_nil, Nat.sub_zero, Nat.zero_add] at i1 i2
    have ihx := fun st => ih st (fun c hc => hm c (by simp [hc]))
    unfold deepen IDSD.deepen
    generalize growTree cfg c TP FP mask b sels (Pattern.new []) (List.replicate n true) st = r1 at i1 i2 ⊢
    generalize IDSD.growTree cfg c TP FP mask sels (Pattern.new []) (List.replicate n true) st = r2 at i1 ⊢
    constructor
    · rcases i1 with rfl | ⟨rfl, h⟩
      · cases r2 with
        | error e => exact .inl rfl
        | ok st2 => exact (ihx st2).1
      · exact .inr ⟨rfl, by omega⟩
    · intro st' h
      cases r1 with
      | error e => cases h
      | ok st2 =>
        intro q hq
        rcases (ihx st2).2 st' h q hq with h1 | h1
        · exact i2 st2 rfl q h1
        · exact .inr h1

theorem idsdFit_within (hf : NominalFrame df target) (b : Nat) (st : IDSDState) :
    Within (maxComplexity cfg df + 1) b (idsdFit cfg b st df target) (IDSD.fit cfg st df target) ∧
    ∀ st', idsdFit cfg b st df target = .ok st' → ∀ q ∈ st'.calls, q.len + 1 ≤ b := by
  obtain ⟨mask, hm0, hm1, hm2⟩ := targetMask_ok hf
  have hf' := reduce_nominal hf (ties := cfg.ties) cfg.cats
  have hmax : maxComplexity cfg (reduceCategories cfg.ties cfg.cats df target.1) = maxComplexity cfg df := by
    unfold maxComplexity
    congr 1
    have : (reduceCategories cfg.ties cfg.cats df target.1).cols.length = df.cols.length := by
      have h := congrArg List.length (reduce_names cfg.ties cfg.cats df target.1)
      simpa using h
    rw [this]
  unfold idsdFit IDSD.fit
  rw [nominal_of hf, hm0]
  simp only [Bool.not_true, Bool.false_eq_true, if_false]
  by_cases hany : (!mask.any id) = true
  · rw [if_pos hany, if_pos hany]
    exact ⟨.inl rfl, fun st' h => by cases h⟩
  · rw [if_neg hany, if_neg hany, hmax]
    obtain ⟨w1, w2⟩ := deepen_within (cfg := cfg) (mask.count true) (df.nrows - mask.count true) mask
      ((selectorPairs (reduceCategories cfg.ties cfg.cats df target.1) target.1).map (·.1))
      (fun s hs => ((mem_sels hf').1 hs).1.2) (nodup_sels hf') df.nrows b (maxComplexity cfg df)
      ((List.range (maxComplexity cfg df)).map (· + 1))
      { st with
        top := [], calls := [],
        apps := (selectorPairs (reduceCategories cfg.ties cfg.cats df target.1) target.1).foldl (fun d e => setApp d e.1 e.2) st.apps }
      (by
        intro c hc
        obtain ⟨i, hi, rfl⟩ := List.mem_map.1 hc
        have := List.mem_range.1 hi
        omega)
    exact ⟨w1, fun st' h q hq => (w2 st' h q hq).resolve_left (by simp)⟩

end
end Verif.Nesting
