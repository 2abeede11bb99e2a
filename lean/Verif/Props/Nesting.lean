import Verif.Lemmas.NestingVLSD
import Verif.Lemmas.NestingBSD
import Verif.Props.SDMap
import Verif.Props.SDMapStar
import Verif.Props.VLSD
import Verif.Props.BSD
import Verif.Props.IDSD
import Verif.Props.Refit
/-! C92: nested calls. `Verif.Nesting.…Fit … b …` is a run of `fit` in which the library may have at most `b` of its own recursive
calls open at the same time (`Model/Nesting`); `… = .error .stack` is the `RecursionError`. The runs without the limit are those of
the other theorems (C23–C34, C40, …). -/
namespace Verif
open Spec Nesting

/-- the run with a limited stack behaves as the run `u` of the other theorems: same results and exceptions, no `RecursionError` -/
def Same {α : Type} (r : Except Fail α) (u : Except PyErr α) : Prop :=
  (∀ a, r = .ok a ↔ u = .ok a) ∧ (∀ e, r = .error (.py e) ↔ u = .error e) ∧ r ≠ .error .stack

theorem same_lift {α : Type} (u : Except PyErr α) : Same (lift u) u := by
  cases u with
  | error e => exact ⟨fun a => by simp [lift], fun e' => by simp [lift], by simp [lift]⟩
  | ok a => exact ⟨fun a => by simp [lift], fun e' => by simp [lift], by simp [lift]⟩

theorem same_of_within {α : Type} {n b : Nat} {r : Except Fail α} {u : Except PyErr α} (h : Within n b r u) :
    (n ≤ b → Same r u) ∧ (r = .error .stack ∨ Same r u) := by
  constructor
  · intro hb; rw [h.eq hb]; exact same_lift u
  · rcases h with h | ⟨h, _⟩
    · exact .inr (h ▸ same_lift u)
    · exact .inl h

theorem dedupLoop_length (l : List Selector) : ∀ acc, (Pattern.dedupLoop acc l).length ≤ acc.length + l.length := by
  induction l with
  | nil => intro acc; simp [Pattern.dedupLoop]
  | cons x l ih =>
    intro acc
    cases acc with
    | nil => have := ih [x]; simp [Pattern.dedupLoop] at this ⊢; omega
    | cons y ys =>
      simp only [Pattern.dedupLoop]
      split
      · have := ih (x :: y :: ys); simp at this ⊢; omega
      · have := ih (y :: ys); simp at this ⊢; omega

theorem new_length_le (X : List Selector) : (Pattern.new X).sels.length ≤ X.length := by
  have := dedupLoop_length (pySort Selector.lt X) []
  rw [(pySort_perm _ _).length_eq] at this
  simpa [Pattern.new] using this

/-- `sdmapFit` against `fitOrder` -/
theorem sdmapFit_within {order : FPTree Selector → List Selector}
    (horder : ∀ t : FPTree Selector, t.sorted = t.sortHeader.sorted → (order t).Perm (t.header.map (·.1)))
    {cfg : SDMapConfig} {df : Frame} {target : Str × Str} (hf : NominalFrame df target) (hk : KeysFaithful df target) (b : Nat) (st : SDMapState) :
    Within (df.cols.length + 1) b (sdmapFit order cfg b st df target) (fitOrder order cfg st df target) ∧
    ∀ st', sdmapFit order cfg b st df target = .ok st' → ∀ r ∈ st'.calls, r ∈ st.calls ∨ r.1.sels.length ≤ b := by
  obtain ⟨mask, hm0, hl, hm⟩ := targetMask_ok hf
  have g := root_good hf hk cfg.th hl hm
  have hlen := rootDB_length hf hk cfg.th hl hm
  have hcols : 1 ≤ df.cols.length := by
    obtain ⟨c, hc, _⟩ := List.mem_map.1 hf.target
    exact List.length_pos_of_mem hc
  unfold sdmapFit fitOrder nominalResults
  rw [nominal_of hf, hm0]
  simp only [Bool.not_true, Bool.false_eq_true, if_false]
  set t := FPTree.buildTree Selector.dictKey (frequentSelectors cfg.th df target.1 mask) (keyRows df target.1 mask) with ht
  by_cases he : t.isEmpty = true
  · rw [if_pos he, if_pos he]
    exact ⟨.inl rfl, fun st' h r hr => by cases h; exact .inl hr⟩
  · rw [if_neg he, if_neg he]
    simp only
    have hfuel := path_le_nodes g.holds
    have w := fpgrowth_within (injOn_dictKey hk) (order := order) horder
      (fun s e => cfg.handle target (mask.count true) (df.nrows - mask.count true) s (Pattern.new e.1, e.2)) b
      (min (df.cols.length - 1) t.nodes.length) (t.nodes.length + 1) [] { st with file := [] } g
      (fun r hr => Nat.le_min.2 ⟨hlen r hr, hfuel r hr⟩) (by omega)
    rw [List.foldlM_map]
    refine ⟨w.mono (by omega), ?_⟩
    intro st' h r hr
    have hb := fpgrowth_length b (t.nodes.length + 1) t [] _ _ h
    rw [h] at w
    rcases w with w | ⟨w, _⟩
    · have w' : ((FPTree.fpgrowth order Selector.dictKey cfg.th (t.nodes.length + 1) t []).map (fun r => (Pattern.new r.1, r.2))).foldlM
          (cfg.handle target (mask.count true) (df.nrows - mask.count true)) { st with file := [] } = .ok st' := by
        rw [List.foldlM_map]
        exact ((same_lift _).1 st').1 w.symm
      rw [(foldlM_handle _ _ _ w').1, List.mem_append] at hr
      rcases hr with hr | hr
      · exact .inl hr
      · obtain ⟨e, he, rfl⟩ := List.mem_map.1 hr
        have := hb e he
        have := new_length_le e.1
        right
        simp at *
        omega
    · cases w

/-- from `st` to `st'` only descriptions with at most `n` selectors were handled and visited -/
def ShortStar (n : Nat) (st st' : StarState) : Prop :=
  (∀ r ∈ st'.base.calls, r ∈ st.base.calls ∨ r.1.sels.length ≤ n) ∧ ∀ v ∈ st'.visits, v ∈ st.visits ∨ v.1.length ≤ n

theorem ShortStar.trans {n : Nat} {a b c : StarState} (h : ShortStar n a b) (h' : ShortStar n b c) : ShortStar n a c :=
  ⟨fun r hr => (h'.1 r hr).elim (h.1 r) .inr, fun v hv => (h'.2 v hv).elim (h.2 v) .inr⟩

theorem ShortStar.refl (n : Nat) (a : StarState) : ShortStar n a a := ⟨fun _ h => .inl h, fun _ h => .inl h⟩

theorem handle_calls_one {cfg : SDMapConfig} {target : Str × Str} {TP FP : Nat} {s s' : SDMapState} {r : Pattern × Cnt}
    (h : cfg.handle target TP FP s r = .ok s') : s'.calls = s.calls ++ [r] := by
  have h' : [r].foldlM (cfg.handle target TP FP) s = .ok s' := by
    rw [List.foldlM_cons, h]; rfl
  exact (foldlM_handle _ _ _ h').1

theorem visit_short {cfg : SDMapStarConfig} {target : Str × Str} {TP FP n : Nat} {st st1 : StarState} {X : List Selector} {c : Cnt} {k : Bool}
    (h : cfg.visit target TP FP st X c = .ok (st1, k)) (hX : X.length ≤ n) : ShortStar n st st1 := by
  obtain ⟨_, _, _, _, _, _, _, _, h5, _, h7⟩ := SDMapStarConfig.visit_cases h
  constructor
  · intro r hr
    rcases h7 with ⟨_, _, h8, _⟩ | ⟨_, _, h8, _⟩
    · rw [h8] at hr; exact .inl hr
    · rw [handle_calls_one h8, List.mem_append, List.mem_singleton] at hr
      rcases hr with hr | rfl
      · exact .inl hr
      · exact .inr (Nat.le_trans (new_length_le X) hX)
  · intro v hv
    rw [h5, List.mem_append, List.mem_singleton] at hv
    rcases hv with hv | rfl
    · exact .inl hv
    · exact .inr hX

theorem foldlM_short {α : Type} {n : Nat} {F : StarState → α → Except Fail StarState} {l : List α}
    (h : ∀ a ∈ l, ∀ s s', F s a = .ok s' → ShortStar n s s') : ∀ s s', l.foldlM F s = .ok s' → ShortStar n s s' := by
  induction l with
  | nil => intro s s' hs; cases hs; exact .refl n s
  | cons a l ih =>
    intro s s' hs
    rw [foldlM_ok_cons] at hs
    split at hs
    · cases hs
    · rename_i s1 h1
      exact (h a (by simp) s s1 h1).trans (ih (fun b hb => h b (List.mem_cons_of_mem _ hb)) s1 s' hs)

theorem foldlM_short' {α : Type} {n : Nat} {F : StarState → α → Except PyErr StarState} {l : List α}
    (h : ∀ a ∈ l, ∀ s s', F s a = .ok s' → ShortStar n s s') : ∀ s s', l.foldlM F s = .ok s' → ShortStar n s s' := by
  induction l with
  | nil => intro s s' hs; cases hs; exact .refl n s
  | cons a l ih =>
    intro s s' hs
    rw [foldlM_ok_cons] at hs
    split at hs
    · cases hs
    · rename_i s1 h1
      exact (h a (by simp) s s1 h1).trans (ih (fun b hb => h b (List.mem_cons_of_mem _ hb)) s1 s' hs)

theorem fpgrowthStar_length {cfg : SDMapStarConfig} {target : Str × Str} {TP FP : Nat} (b : Nat) :
    ∀ (st st' : StarState) (t : FPTree Selector) (alpha : List Selector), Nesting.fpgrowthStar cfg target TP FP b st t alpha = .ok st' →
      ShortStar (alpha.length + b) st st' := by
  induction b with
  | zero => intro st st' t alpha h; cases h
  | succ b ih =>
    intro st st' t alpha h
    unfold Nesting.fpgrowthStar at h
    split at h
    · rw [combinations_eq] at h
      split at h
      · cases h
      · rename_i x hx
        split at hx
        · rename_i hlt
          cases hx
          refine foldlM_short' ?_ _ _ (((same_lift _).1 st').1 h)
          intro be hbe s s' hs
          have := List.mem_of_mem_erase hbe
          rw [allCombinations_eq, List.mem_sublists'] at this
          have := this.length_le
          cases hvis : cfg.visit target TP FP s (be ++ alpha) (t.leastFrequentCnt be) with
          | error e => rw [hvis] at hs; cases hs
          | ok r =>
            rw [hvis] at hs
            cases hs
            exact visit_short (k := r.2) hvis (by simp; omega)
        · cases hx
    · split at h
      · cases h
      · refine foldlM_short ?_ _ _ h
        intro a _ s s' hs
        split at hs
        · cases hs
        · rename_i s2 hvis
          cases hs
          exact visit_short hvis (by simp)
        · rename_i s2 hvis
          refine (visit_short hvis (n := alpha.length + (b + 1)) (by simp)).trans ?_
          split at hs
          · cases hs
          · split at hs
            · have := ih _ _ _ _ hs
              rw [List.length_cons, show alpha.length + 1 + b = alpha.length + (b + 1) by omega] at this
              exact this
            · cases hs; exact .refl _ _

theorem header_order_perm : ∀ t : FPTree Selector, t.sorted = t.sortHeader.sorted →
    ((fun t : FPTree Selector => t.header.map (·.1)) t).Perm (t.header.map (·.1)) := fun t _ => List.Perm.refl _

theorem starFit_within {cfg : SDMapStarConfig} {df : Frame} {target : Str × Str} (hf : NominalFrame df target) (hk : KeysFaithful df target)
    (b : Nat) (st : StarState) :
    Within (df.cols.length + 1) b (starFit cfg b st df target) (cfg.fit st df target) ∧
    ∀ st', starFit cfg b st df target = .ok st' → ShortStar b st st' := by
  by_cases h0 : cfg.num = 0
  · obtain ⟨w1, w2⟩ := sdmapFit_within header_order_perm (cfg := cfg.toSDMapConfig) hf hk b st.base
    constructor
    · unfold starFit
      rw [if_pos h0, fit_zero h0]
      rcases w1 with w1 | ⟨w1, hb⟩
      · rw [w1]
        cases fitOrder (fun t => t.header.map (·.1)) cfg.toSDMapConfig st.base df target <;> exact .inl rfl
      · rw [w1]; exact .inr ⟨rfl, hb⟩
    · intro st' h
      unfold starFit at h
      rw [if_pos h0] at h
      split at h
      · cases h
      · rename_i s hs
        cases h
        exact ⟨w2 s hs, fun v hv => .inl hv⟩
  · obtain ⟨mask, hm0, hl, hm⟩ := targetMask_ok hf
    have g := root_good hf hk cfg.th hl hm
    have hlen := rootDB_length hf hk cfg.th hl hm
    have hcols : 1 ≤ df.cols.length := by
      obtain ⟨c, hc, _⟩ := List.mem_map.1 hf.target
      exact List.length_pos_of_mem hc
    unfold starFit SDMapStarConfig.fit
    rw [nominal_of hf, hm0, if_neg h0, if_neg h0]
    simp only [Bool.not_true, Bool.false_eq_true, if_false]
    set t := FPTree.buildTree Selector.dictKey (frequentSelectors cfg.th df target.1 mask) (keyRows df target.1 mask) with ht
    by_cases he : t.isEmpty = true
    · rw [if_pos he, if_pos he]
      exact ⟨.inl rfl, fun st' h => by cases h; exact .refl _ _⟩
    · rw [if_neg he, if_neg he]
      have hfuel := path_le_nodes g.holds
      have w := fpgrowthStar_within (cfg := cfg) (target := target) (TP := mask.count true) (FP := df.nrows - mask.count true)
        (injOn_dictKey hk) b (min (df.cols.length - 1) t.nodes.length) (t.nodes.length + 1) [] { st with base := { st.base with file := [] } } g
        (fun r hr => Nat.le_min.2 ⟨hlen r hr, hfuel r hr⟩) (by omega)
      refine ⟨w.mono (by omega), ?_⟩
      intro st' h
      have := fpgrowthStar_length b _ _ _ _ h
      rw [List.length_nil, Nat.zero_add] at this
      exact this


/-! ## the claims -/

section
variable {df : Frame} {target : Str × Str}

/-- C92 for SDMap: with `number of columns + 1` nested calls `fit` behaves exactly as if there were no limit; with fewer it either does so too
or raises `RecursionError`. -/
theorem C92_sdmap (cfg : SDMapConfig) (hf : NominalFrame df target) (hk : KeysFaithful df target) (b : Nat) (st : SDMapState) :
    (df.cols.length + 1 ≤ b → Same (sdmapFit FPTree.sorted cfg b st df target) (cfg.fit st df target)) ∧
    (sdmapFit FPTree.sorted cfg b st df target = .error .stack ∨ Same (sdmapFit FPTree.sorted cfg b st df target) (cfg.fit st df target)) :=
  same_of_within (sdmapFit_within sorted_order_perm hf hk b st).1

/-- C92: a run of SDMap that does not exhaust the stack evaluates no description with more selectors than nested calls. -/
theorem C92_sdmap_longest (cfg : SDMapConfig) (hf : NominalFrame df target) (hk : KeysFaithful df target) (b : Nat) (st st' : SDMapState)
    (h : sdmapFit FPTree.sorted cfg b st df target = .ok st') :
    ∀ r ∈ st'.calls, r ∈ st.calls ∨ r.1.sels.length ≤ b :=
  (sdmapFit_within sorted_order_perm hf hk b st).2 st' h

/-- C92: so if some frequent description has more selectors than nested calls are possible, `fit` fails with `RecursionError` (when the
measure is defined on the frequent descriptions; otherwise it fails in one way or the other). -/
theorem C92_sdmap_overflows (cfg : SDMapConfig) (hf : NominalFrame df target) (hk : KeysFaithful df target) (b : Nat) (st : SDMapState)
    (hst : st.calls = []) (X : List Selector) (hX : Reportable cfg.th df target X) (hlong : b < X.length) :
    (∀ st', sdmapFit FPTree.sorted cfg b st df target ≠ .ok st') ∧
    ((∀ Y, Reportable cfg.th df target Y → ∃ q, qualityOf cfg df target Y = .ok q) →
      sdmapFit FPTree.sorted cfg b st df target = .error .stack) := by
  have hno : ∀ st', sdmapFit FPTree.sorted cfg b st df target ≠ .ok st' := by
    intro st' h
    have h' : cfg.fit st df target = .ok st' := by
      rcases (C92_sdmap cfg hf hk b st).2 with hs | hs
      · rw [h] at hs; cases hs
      · exact (hs.1 st').1 h
    obtain ⟨calls, h1, h2⟩ := C24 cfg df target hf hk st st' h'
    obtain ⟨r, hr, rfl⟩ := h2 X hX
    rcases C92_sdmap_longest cfg hf hk b st st' h r (by rw [h1]; exact List.mem_append_right _ hr) with hh | hh
    · rw [hst] at hh; simp at hh
    · omega
  refine ⟨hno, fun hq => ?_⟩
  obtain ⟨st', h⟩ := (C24_total cfg df target hf hk st).2 hq
  rcases (C92_sdmap cfg hf hk b st).2 with hs | hs
  · exact hs
  · exact absurd ((hs.1 st').2 h) (hno st')

/-- C92: the bound of `C92_sdmap` cannot be improved: on one row whose full description is frequent, one call less is not enough. -/
theorem C92_sdmap_one_row (cfg : SDMapConfig) (hf : NominalFrame df target) (hk : KeysFaithful df target) (h1 : df.nrows = 1)
    (X : List Selector) (hX : Reportable cfg.th df target X) (hfull : X.length + 1 = df.cols.length) (b : Nat) (hb : b ≤ df.cols.length)
    (st : SDMapState) : sdmapFit FPTree.sorted cfg b st df target = .error .stack := by
  obtain ⟨mask, hm0, hl, hm⟩ := targetMask_ok hf
  have g := root_good hf hk cfg.th hl hm
  obtain ⟨hd, hs, ho, hfr⟩ := hX
  have hmem := frequent_mem hf hk cfg.th hl hm hd ho hfr
  unfold sdmapFit
  rw [nominal_of hf, hm0]
  simp only [Bool.not_true, Bool.false_eq_true, if_false]
  set t := FPTree.buildTree Selector.dictKey (frequentSelectors cfg.th df target.1 mask) (keyRows df target.1 mask) with ht
  -- the only row
  obtain ⟨i, hi, hc⟩ := ho
  have hi0 : i = 0 := by omega
  subst hi0
  have hDB : ∃ r, rootDB cfg.th df target.1 mask = [r] ∧ ∀ x ∈ X, x ∈ r.1 := by
    refine ⟨_, by unfold rootDB; rw [h1]; rfl, ?_⟩
    intro x hx
    have hh := hd.2 x hx
    rw [mem_rootRow hf hk, mem_rowSels_iff hf hh.1 hh.2.1 hh.2.2]
    exact ⟨hc x hx, hmem x hx⟩
  obtain ⟨r, hr, hXr⟩ := hDB
  have hrD : r ∈ rootDB cfg.th df target.1 mask := by rw [hr]; simp
  have hne : ¬ t.isEmpty = true := by
    rw [FPTree.isEmpty_iff g.holds]
    intro hh
    have := hh r hrD
    obtain ⟨x, X', rfl⟩ := List.exists_cons_of_ne_nil hd.1
    have := hXr x (by simp)
    simp_all
  rw [if_neg hne]
  have hsp : t.singlePath = true := by
    have hle := path_le_nodes g.holds r hrD
    rcases FPTree.singlePathLoop_complete g.holds (P := r.1) (fun r' hr' => by rw [hr, List.mem_singleton] at hr'; rw [hr']) t.nodes.length
      (path_le_nodes g.holds) (t.nodes.length + 1) [] (List.nil_prefix) (by simp) with h | h
    · exact h
    · simp at h
  have hlen : X.length ≤ t.sorted.length := by
    have hperm := FPTree.sorted_perm g.sorted
    have hsub : X ⊆ t.sorted := by
      intro x hx
      rw [hperm.mem_iff, FPTree.mem_header g.holds]
      exact ⟨r, hrD, hXr x hx⟩
    have hnd : X.Nodup := by
      have := (sorted_iff_lt (textEq_of_describes hd)).1 hs
      exact nodup_of_sorted this
    exact (List.subperm_of_subset hnd hsub).length_le
  cases b with
  | zero => rfl
  | succ b =>
    unfold Nesting.fpgrowth
    rw [if_pos hsp, combinations_eq, if_neg (by omega)]

/-- C92 for SDMapStar. -/
theorem C92_sdmapstar (cfg : SDMapStarConfig) (hf : NominalFrame df target) (hk : KeysFaithful df target) (b : Nat) (st : StarState) :
    (df.cols.length + 1 ≤ b → Same (starFit cfg b st df target) (cfg.fit st df target)) ∧
    (starFit cfg b st df target = .error .stack ∨ Same (starFit cfg b st df target) (cfg.fit st df target)) ∧
    ∀ st', starFit cfg b st df target = .ok st' →
      (∀ r ∈ st'.base.calls, r ∈ st.base.calls ∨ r.1.sels.length ≤ b) ∧ ∀ v ∈ st'.visits, v ∈ st.visits ∨ v.1.length ≤ b :=
  let w := starFit_within (cfg := cfg) hf hk b st
  ⟨(same_of_within w.1).1, (same_of_within w.1).2, w.2⟩

/-- C92 for VLSD with sets: `number of columns − 2` nested calls are enough, and a run that does not exhaust the stack handles no description
with more than `b + 2` selectors. -/
theorem C92_vlsd_sets (measure : Params → Except PyErr Rat) (minQ : Rat) (estimate : Params → Except PyErr Rat) (minE : Rat) (x xo : Params)
    (s1 s2 : SortCriterion) (he : LookupOnly estimate) (hf : NominalFrame df target) (b : Nat) (st : VLState (List Nat))
    (cfg : VLSDConfig) (hc : cfg = VLSDConfig.new measure minQ estimate minE x xo s1 s2) :
    (df.cols.length - 2 ≤ b → Same (vlsdFit .sets cfg b st df target) (cfg.fit .sets st df target)) ∧
    (vlsdFit .sets cfg b st df target = .error .stack ∨ Same (vlsdFit .sets cfg b st df target) (cfg.fit .sets st df target)) ∧
    ∀ st', vlsdFit .sets cfg b st df target = .ok st' → ∀ v ∈ st'.calls, v ∈ st.calls ∨ v.sels.length ≤ 2 + b := by
  subst hc
  have w := vlsdFit_within lawsSets (cfgOK_new measure minQ estimate minE x xo s1 s2 he) hf b st
  exact ⟨(same_of_within w.1).1, (same_of_within w.1).2, w.2⟩

/-- C92 for VLSD with bitsets. -/
theorem C92_vlsd_bitsets (measure : Params → Except PyErr Rat) (minQ : Rat) (estimate : Params → Except PyErr Rat) (minE : Rat) (x xo : Params)
    (s1 s2 : SortCriterion) (he : LookupOnly estimate) (hf : NominalFrame df target) (b : Nat) (st : VLState Bits)
    (cfg : VLSDConfig) (hc : cfg = VLSDConfig.new measure minQ estimate minE x xo s1 s2) :
    (df.cols.length - 2 ≤ b → Same (vlsdFit .bitsets cfg b st df target) (cfg.fit .bitsets st df target)) ∧
    (vlsdFit .bitsets cfg b st df target = .error .stack ∨ Same (vlsdFit .bitsets cfg b st df target) (cfg.fit .bitsets st df target)) ∧
    ∀ st', vlsdFit .bitsets cfg b st df target = .ok st' → ∀ v ∈ st'.calls, v ∈ st.calls ∨ v.sels.length ≤ 2 + b := by
  subst hc
  have w := vlsdFit_within lawsBits (cfgOK_new measure minQ estimate minE x xo s1 s2 he) hf b st
  exact ⟨(same_of_within w.1).1, (same_of_within w.1).2, w.2⟩

/-- C92 for VLSD: a description with more than `b + 2` selectors, all of whose parts reach the estimate, makes the run fail (both
implementations: `has` tells which rows a sequence has). -/
theorem C92_vlsd_overflows (measure : Params → Except PyErr Rat) (minQ : Rat) (estimate : Params → Except PyErr Rat) (minE : Rat) (x xo : Params)
    (s1 s2 : SortCriterion) (he : LookupOnly estimate) (hf : NominalFrame df target) (b : Nat)
    (cfg : VLSDConfig) (hc : cfg = VLSDConfig.new measure minQ estimate minE x xo s1 s2)
    (X : List Selector) (hX : Describes target X) (hn : X.Nodup) (hlong : b + 2 < X.length)
    (hall : ∀ Y, Y ≠ [] → (∀ s ∈ Y, s ∈ X) → EstimateReached cfg df target Y) :
    (∀ st st', st.calls = [] → vlsdFit .sets cfg b st df target ≠ .ok st') ∧
    (∀ st st', st.calls = [] → vlsdFit .bitsets cfg b st df target ≠ .ok st') ∧
    (∀ st st', st.calls = [] → cfg.fit .sets st df target = .ok st' → vlsdFit .sets cfg b st df target = .error .stack) ∧
    (∀ st st', st.calls = [] → cfg.fit .bitsets st df target = .ok st' → vlsdFit .bitsets cfg b st df target = .error .stack) := by
  have hlen : ∀ Y : List Selector, SameSet Y X → X.length ≤ Y.length := fun Y hY => (List.subperm_of_subset hn (fun s hs => (hY s).2 hs)).length_le
  have k1 : ∀ st st', st.calls = [] → vlsdFit .sets cfg b st df target ≠ .ok st' := by
    intro st st' hst h
    obtain ⟨_, h2, h3⟩ := C92_vlsd_sets measure minQ estimate minE x xo s1 s2 he hf b st cfg hc
    have h' : cfg.fit .sets st df target = .ok st' := by
      rcases h2 with hs | hs
      · rw [h] at hs; cases hs
      · exact (hs.1 st').1 h
    subst hc
    obtain ⟨calls, hr⟩ := C29_sets measure minQ estimate minE x xo s1 s2 he df target hf st st' h'
    obtain ⟨v, hv, hsame⟩ := hr.complete X hX hall
    have := hlen _ hsame
    rcases h3 st' h v (by rw [hr.calls_eq]; exact List.mem_append_right _ hv) with hh | hh
    · rw [hst] at hh; simp at hh
    · omega
  have k2 : ∀ st st', st.calls = [] → vlsdFit .bitsets cfg b st df target ≠ .ok st' := by
    intro st st' hst h
    obtain ⟨_, h2, h3⟩ := C92_vlsd_bitsets measure minQ estimate minE x xo s1 s2 he hf b st cfg hc
    have h' : cfg.fit .bitsets st df target = .ok st' := by
      rcases h2 with hs | hs
      · rw [h] at hs; cases hs
      · exact (hs.1 st').1 h
    subst hc
    obtain ⟨calls, hr⟩ := C29_bitsets measure minQ estimate minE x xo s1 s2 he df target hf st st' h'
    obtain ⟨v, hv, hsame⟩ := hr.complete X hX hall
    have := hlen _ hsame
    rcases h3 st' h v (by rw [hr.calls_eq]; exact List.mem_append_right _ hv) with hh | hh
    · rw [hst] at hh; simp at hh
    · omega
  refine ⟨k1, k2, ?_, ?_⟩
  · intro st st' hst h
    rcases (C92_vlsd_sets measure minQ estimate minE x xo s1 s2 he hf b st cfg hc).2.1 with hs | hs
    · exact hs
    · exact absurd ((hs.1 st').2 h) (k1 st st' hst)
  · intro st st' hst h
    rcases (C92_vlsd_bitsets measure minQ estimate minE x xo s1 s2 he hf b st cfg hc).2.1 with hs | hs
    · exact hs
    · exact absurd ((hs.1 st').2 h) (k2 st st' hst)

/-- C92 for BSD, CBSD and CPBSD: `max_depth + 1` nested calls are enough, and so is the number of columns. -/
theorem C92_bsd (cfg : BSDConfig) (hf : NominalFrame df target) (ht : TextsFaithful df target) (b : Nat) (st : BSDState) :
    (min (cfg.maxDepth + 1) df.cols.length ≤ b → Same (bsdFit cfg b st df target) (cfg.fit st df target)) ∧
    (bsdFit cfg b st df target = .error .stack ∨ Same (bsdFit cfg b st df target) (cfg.fit st df target)) ∧
    ∀ st', bsdFit cfg b st df target = .ok st' → ∀ e ∈ st'.calls, e ∈ st.calls ∨ e.pat.sels.length ≤ b := by
  have w := bsdFit_within (cfg := cfg) hf ht b st
  have hcols : 1 ≤ df.cols.length := by
    obtain ⟨c, hc, _⟩ := List.mem_map.1 hf.target
    exact List.length_pos_of_mem hc
  exact ⟨fun hb => (same_of_within w.1).1 (by omega), (same_of_within w.1).2, w.2⟩

/-- C92 for IDSD: one more nested call than the largest complexity asked for (or than the number of non-target columns, when none is asked for)
is enough. -/
theorem C92_idsd (cfg : IDSDConfig) (hf : NominalFrame df target) (b : Nat) (st : IDSDState) :
    ((if cfg.maxC = -1 then df.cols.length else cfg.maxC.toNat + 1) ≤ b → Same (idsdFit cfg b st df target) (IDSD.fit cfg st df target)) ∧
    (idsdFit cfg b st df target = .error .stack ∨ Same (idsdFit cfg b st df target) (IDSD.fit cfg st df target)) ∧
    ∀ st', idsdFit cfg b st df target = .ok st' → ∀ q ∈ st'.calls, q.sels.length + 1 ≤ b := by
  have w := idsdFit_within (cfg := cfg) hf b st
  have hcols : 1 ≤ df.cols.length := by
    obtain ⟨c, hc, _⟩ := List.mem_map.1 hf.target
    exact List.length_pos_of_mem hc
  refine ⟨fun hb => (same_of_within w.1).1 ?_, (same_of_within w.1).2, w.2⟩
  unfold IDSD.maxComplexity
  split at hb <;> simp_all

end

/-! ## examples -/

theorem demoFrame_texts : TextsFaithful demoFrame (c!"t", c!"yes") := by
  apply textsFaithful_of
  left
  intro c hc; simp [demoFrame] at hc; rcases hc with rfl | rfl | rfl <;> decide +kernel

theorem demoFrame_keys : KeysFaithful demoFrame (c!"t", c!"yes") := by
  refine keysFaithful_of_no_quotes demoFrame_ok ?_
  intro c hc; simp [demoFrame] at hc
  rcases hc with rfl | rfl | rfl <;> decide +kernel

/-- what a run shows of the way it ends -/
def outcome {α : Type} : Except Fail α → Option (Option PyErr)
  | .ok _ => some none
  | .error (.py e) => some (some e)
  | .error .stack => none

/-- one row, two attributes and a target -/
def oneRow : Frame := ⟨1, [(c!"a", [.str c!"x"]), (c!"b", [.str c!"p"]), (c!"t", [.str c!"yes"])]⟩

/-- SDMap with WRAcc and at least one positive row -/
def nestCfg : SDMapConfig := ⟨Measure.wracc.compute, -1, .tpFp 1 0, []⟩

open IDSDWitness in
/-- C92: the bounds are attained: on small data all five algorithms need exactly the number of calls of the theorems (4 for three columns in
SDMap and SDMapStar, 1 in VLSD, 2 for depth 1 in BSD, 3 in IDSD). -/
theorem C92_attained :
    (List.range 5).map (fun b => outcome (sdmapFit FPTree.sorted nestCfg b ⟨0, 0, [], []⟩ demoFrame (c!"t", c!"yes"))) =
      [none, none, none, none, some none] ∧
    (List.range 5).map (fun b => outcome (sdmapFit FPTree.sorted nestCfg b ⟨0, 0, [], []⟩ oneRow (c!"t", c!"yes"))) =
      [none, none, none, none, some none] ∧
    (List.range 5).map (fun b => outcome (starFit (starCfg Quality.wracc Quality.wraccOE1) b freshStar demoFrame (c!"t", c!"yes"))) =
      [none, none, none, none, some none] ∧
    (List.range 3).map (fun b => outcome (vlsdFit .sets (vlCfg (1/100) 0) b freshVL demoFrame (c!"t", c!"yes"))) = [none, some none, some none] ∧
    (List.range 3).map (fun b => outcome (vlsdFit .bitsets (vlCfg (1/100) 0) b freshVL demoFrame (c!"t", c!"yes"))) = [none, some none, some none] ∧
    (List.range 4).map (fun b => outcome (bsdFit (bsdCfg .bsd 2 1) b .fresh demoFrame (c!"t", c!"yes"))) = [none, none, some none, some none] ∧
    (List.range 5).map (fun b => outcome (idsdFit cfgA b .init dfA tA)) = [none, none, none, some none, some none] := by
  refine ⟨by decide +kernel, by decide +kernel, by decide +kernel, by decide +kernel, by decide +kernel, by decide +kernel, by decide +kernel⟩

open IDSDWitness in
/-- the hypotheses of the theorems on that data -/
example : NominalFrame demoFrame (c!"t", c!"yes") ∧ KeysFaithful demoFrame (c!"t", c!"yes") ∧ TextsFaithful demoFrame (c!"t", c!"yes") ∧
    NominalFrame dfA tA ∧ demoFrame.cols.length = 3 ∧ dfA.cols.length = 3 :=
  ⟨demoFrame_ok, demoFrame_keys, demoFrame_texts, nominalA, rfl, rfl⟩

theorem oneRow_ok : NominalFrame oneRow (c!"t", c!"yes") := by
  refine ⟨?_, by decide +kernel, ?_, by decide +kernel⟩
  · intro c hc; simp [oneRow] at hc; rcases hc with rfl | rfl | rfl <;> rfl
  · intro c hc; simp [oneRow] at hc
    rcases hc with rfl | rfl | rfl <;> simp

theorem oneRow_keys : KeysFaithful oneRow (c!"t", c!"yes") := by
  refine keysFaithful_of_no_quotes oneRow_ok ?_
  intro c hc; simp [oneRow] at hc
  rcases hc with rfl | rfl | rfl <;> decide +kernel

/-- the full description of the row is frequent -/
theorem oneRow_full : Reportable nestCfg.th oneRow (c!"t", c!"yes") [⟨c!"a", .equal, .str c!"x"⟩, ⟨c!"b", .equal, .str c!"p"⟩] := by
  have hm : ∀ s : Selector, s = ⟨c!"a", .equal, .str c!"x"⟩ ∨ s = ⟨c!"b", .equal, .str c!"p"⟩ ∨ s = targetSel (c!"t", c!"yes") → MatchesAt oneRow s 0 := by
    rintro s (rfl | rfl | rfl)
    · exact ⟨[.str c!"x"], .str c!"x", by decide +kernel, rfl, by decide +kernel⟩
    · exact ⟨[.str c!"p"], .str c!"p", by decide +kernel, rfl, by decide +kernel⟩
    · exact ⟨[.str c!"yes"], .str c!"yes", by decide +kernel, rfl, by decide +kernel⟩
  have hc : Covers oneRow [⟨c!"a", .equal, .str c!"x"⟩, ⟨c!"b", .equal, .str c!"p"⟩] 0 := by
    intro s hs
    simp only [List.mem_cons, List.not_mem_nil, or_false] at hs
    exact hm s (by tauto)
  refine ⟨⟨by simp, ?_⟩, by decide +kernel, ⟨0, by decide, hc⟩, ?_, Int.natCast_nonneg _⟩
  · intro s hs
    simp only [List.mem_cons, List.not_mem_nil, or_false] at hs
    rcases hs with rfl | rfl
    · exact ⟨by decide, rfl, _, rfl⟩
    · exact ⟨by decide, rfl, _, rfl⟩
  · have : 0 < tpOf oneRow (c!"t", c!"yes") [⟨c!"a", .equal, .str c!"x"⟩, ⟨c!"b", .equal, .str c!"p"⟩] := by
      unfold tpOf
      apply List.length_pos_of_mem (a := 0)
      rw [List.mem_filter]
      exact ⟨by decide, by simp only [decide_eq_true_eq]; exact ⟨hc, hm _ (by tauto)⟩⟩
    exact_mod_cast this

example : sdmapFit FPTree.sorted nestCfg 3 ⟨0, 0, [], []⟩ oneRow (c!"t", c!"yes") = .error .stack :=
  C92_sdmap_one_row nestCfg oneRow_ok oneRow_keys rfl _ oneRow_full rfl 3 (by decide) _

example : ∀ st', sdmapFit FPTree.sorted nestCfg 1 ⟨0, 0, [], []⟩ oneRow (c!"t", c!"yes") ≠ .ok st' :=
  (C92_sdmap_overflows nestCfg oneRow_ok oneRow_keys 1 ⟨0, 0, [], []⟩ rfl _ oneRow_full (by decide)).1

/-- three attributes with the same text in the only row -/
def wideRow : Frame := ⟨1, [(c!"a", [.str c!"x"]), (c!"b", [.str c!"x"]), (c!"c", [.str c!"x"]), (c!"t", [.str c!"yes"])]⟩

/-- VLSD without a nested call fails on three attributes: `C92_vlsd_overflows` applies -/
example : ∀ st', vlsdFit .sets (VLSDConfig.new Measure.wracc.compute 0 (fun _ => .ok 0) 0 [] [] .noOrder .noOrder) 0 freshVL wideRow (c!"t", c!"yes") ≠ .ok st' := by
  have hf : NominalFrame wideRow (c!"t", c!"yes") := by
    refine ⟨?_, by decide +kernel, ?_, by decide +kernel⟩
    · intro c hc; simp [wideRow] at hc; rcases hc with rfl | rfl | rfl | rfl <;> rfl
    · intro c hc; simp [wideRow] at hc
      rcases hc with rfl | rfl | rfl | rfl <;> simp
  refine fun st' => (C92_vlsd_overflows Measure.wracc.compute 0 (fun _ => .ok 0) 0 [] [] .noOrder .noOrder (fun _ _ _ => rfl) hf 0 _ rfl
    [⟨c!"a", .equal, .str c!"x"⟩, ⟨c!"b", .equal, .str c!"x"⟩, ⟨c!"c", .equal, .str c!"x"⟩] ⟨by simp, ?_⟩ (by decide) (by decide) ?_).1 freshVL st' rfl
  · intro s hs
    simp only [List.mem_cons, List.not_mem_nil, or_false] at hs
    rcases hs with rfl | rfl | rfl <;> exact ⟨by decide, rfl, _, rfl⟩
  · intro Y _ hY
    refine ⟨⟨0, by decide, fun s hs => ?_⟩, 0, rfl, le_refl _⟩
    have := hY s hs
    simp only [List.mem_cons, List.not_mem_nil, or_false] at this
    rcases this with rfl | rfl | rfl <;> exact ⟨[.str c!"x"], .str c!"x", by decide +kernel, rfl, by decide +kernel⟩

end Verif
