import Verif.Props.BSD
import Verif.Props.SDMapStar
/-! Property C35: what a second `fit` of the same object does. -/
namespace Verif
open Spec

/-! ## SDMap -/

/-- what is left of an earlier state `a` after a run that, on a new object, gives `r`: the counters continue -/
def Spec.SDMapState.after (a r : SDMapState) : SDMapState := ⟨a.selected + r.selected, a.unselected + r.unselected, r.file, a.calls ++ r.calls⟩

def Spec.newSDMap : SDMapState := ⟨0, 0, [], []⟩

theorem handle_after (cfg : SDMapConfig) (target : Str × Str) (TP FP : Nat) (a r : SDMapState) (x : Pattern × Cnt) :
    cfg.handle target TP FP (SDMapState.after a r) x = (cfg.handle target TP FP r x).map (SDMapState.after a) := by
  unfold SDMapConfig.handle
  split
  · rfl
  · split
    · simp [Except.map, SDMapState.after, Nat.add_assoc]
    · simp [Except.map, SDMapState.after, Nat.add_assoc]

theorem fold_after {σ ε ι : Type} (f : σ → ι → Except ε σ) (sh : σ → σ) (h : ∀ r x, f (sh r) x = (f r x).map sh) (l : List ι) (r : σ) :
    l.foldlM f (sh r) = (l.foldlM f r).map sh := by
  induction l generalizing r with
  | nil => rfl
  | cons x l ih =>
    rw [List.foldlM_cons, List.foldlM_cons, h]
    cases f r x with
    | error e => rfl
    | ok r' => exact ih r'

/-- C35, SDMap: whatever was done before with the object, `fit` fails as that of a new object would, or it handles the same descriptions and
writes the same file, and its counters are the previous ones plus those of a new object. When nothing is frequent the file is not opened,
so the file of an earlier run is left as it was. -/
theorem C35_sdmap (cfg : SDMapConfig) (st : SDMapState) (df : Frame) (target : Str × Str) :
    (∃ e, cfg.fit newSDMap df target = .error e ∧ cfg.fit st df target = .error e) ∨
    ∃ r st', cfg.fit newSDMap df target = .ok r ∧ cfg.fit st df target = .ok st' ∧
      st'.selected = st.selected + r.selected ∧ st'.unselected = st.unselected + r.unselected ∧ st'.calls = st.calls ++ r.calls ∧
      (st'.file = r.file ∨ (st'.file = st.file ∧ r.calls = [] ∧ r.file = [])) := by
  unfold SDMapConfig.fit
  split
  · exact Or.inl ⟨_, rfl, rfl⟩
  · exact Or.inr ⟨_, _, rfl, rfl, by simp [newSDMap], by simp [newSDMap], by simp [newSDMap], Or.inr ⟨rfl, rfl, rfl⟩⟩
  · rename_i rs TP FP _
    have e1 : ({ st with file := [] } : SDMapState) = SDMapState.after st newSDMap := by simp [SDMapState.after, newSDMap]
    have e2 : ({ newSDMap with file := [] } : SDMapState) = newSDMap := rfl
    rw [e1, e2, fold_after _ _ (handle_after cfg target TP FP st)]
    cases List.foldlM (cfg.handle target TP FP) newSDMap (rs.map (fun r => (Pattern.new r.1, r.2))) with
    | error e => exact Or.inl ⟨e, rfl, rfl⟩
    | ok r => exact Or.inr ⟨r, _, rfl, rfl, rfl, rfl, rfl, Or.inl rfl⟩

/-! ## SDMapStar without a limit -/

/-- C35, SDMapStar with `num_subgroups = 0`: as SDMap. -/
theorem C35_sdmapstar (cfg : SDMapStarConfig) (h0 : cfg.num = 0) (st new : StarState) (hnew : new.base = newSDMap) (df : Frame) (target : Str × Str) :
    (∃ e, cfg.fit new df target = .error e ∧ cfg.fit st df target = .error e) ∨
    ∃ r st', cfg.fit new df target = .ok r ∧ cfg.fit st df target = .ok st' ∧
      st'.base.selected = st.base.selected + r.base.selected ∧ st'.base.unselected = st.base.unselected + r.base.unselected ∧
      st'.base.calls = st.base.calls ++ r.base.calls ∧
      (st'.base.file = r.base.file ∨ (st'.base.file = st.base.file ∧ r.base.calls = [] ∧ r.base.file = [])) := by
  unfold SDMapStarConfig.fit
  rw [if_pos h0, if_pos h0, hnew]
  split
  · exact Or.inl ⟨_, rfl, rfl⟩
  · exact Or.inr ⟨_, _, rfl, rfl, by simp [hnew, newSDMap], by simp [hnew, newSDMap], by simp [hnew, newSDMap], Or.inr ⟨rfl, by simp [hnew, newSDMap], by simp [hnew, newSDMap]⟩⟩
  · rename_i rs TP FP _
    have e1 : ({ st.base with file := [] } : SDMapState) = SDMapState.after st.base newSDMap := by simp [SDMapState.after, newSDMap]
    have e2 : ({ newSDMap with file := [] } : SDMapState) = newSDMap := rfl
    rw [e1, e2, fold_after _ _ (handle_after cfg.toSDMapConfig target TP FP st.base)]
    cases List.foldlM (cfg.toSDMapConfig.handle target TP FP) newSDMap (rs.map (fun r => (Pattern.new r.1, r.2))) with
    | error e => exact Or.inl ⟨e, rfl, rfl⟩
    | ok r => exact Or.inr ⟨_, _, rfl, rfl, rfl, rfl, rfl, Or.inl rfl⟩

/-! ## VLSD -/
section VLSD
variable {Seq : Type}

def Spec.VLState.after (a r : VLState Seq) : VLState Seq := ⟨a.selected + r.selected, a.unselected + r.unselected, r.file, a.calls ++ r.calls⟩

def Spec.newVLSD : VLState Seq := ⟨0, 0, [], []⟩

theorem vl_handle_after (cfg : VLSDConfig) (target : Str × Str) (TP FP : Nat) (a r : VLState Seq) (x : VList Selector Seq) :
    cfg.handle target TP FP (VLState.after a r) x = (cfg.handle target TP FP r x).map (VLState.after a) := by
  unfold VLSDConfig.handle
  split
  · rfl
  · split
    · simp [Except.map, VLState.after, Nat.add_assoc]
    · simp [Except.map, VLState.after, Nat.add_assoc]

theorem joinRight_after (I : VLImpl Seq) (cfg : VLSDConfig) (target : Str × Str) (TP FP : Nat) (M : VMatrix Seq) (x : VList Selector Seq)
    (ys : List (VList Selector Seq)) (a r : VLState Seq) :
    cfg.joinRight I target TP FP M x ys (VLState.after a r) = (cfg.joinRight I target TP FP M x ys r).map (fun p => (VLState.after a p.1, p.2)) := by
  induction ys generalizing r with
  | nil => rfl
  | cons y ys ih =>
    unfold VLSDConfig.joinRight
    split
    · split
      · exact ih r
      · split
        · split
          · rfl
          · exact ih r
          · rw [vl_handle_after]
            cases cfg.handle target TP FP r _ with
            | error e => rfl
            | ok r1 =>
              simp only [Except.map]
              rw [ih]
              cases cfg.joinRight I target TP FP M x ys r1 with
              | error e => rfl
              | ok p => rfl
        · exact ih r
    · rfl

theorem search_after (I : VLImpl Seq) (cfg : VLSDConfig) (target : Str × Str) (TP FP : Nat) (M : VMatrix Seq) (a : VLState Seq)
    (P : List (VList Selector Seq)) (r : VLState Seq) :
    cfg.search I target TP FP M P (VLState.after a r) = (cfg.search I target TP FP M P r).map (VLState.after a) := by
  induction hn : P.length using Nat.strong_induction_on generalizing P r with
  | _ n ih =>
    cases P with
    | nil => unfold VLSDConfig.search; rfl
    | cons x rest =>
      rw [VLSDConfig.search, VLSDConfig.search]
      have hj := joinRight_after I cfg target TP FP M x rest a r
      cases h1 : cfg.joinRight I target TP FP M x rest r with
      | error e =>
        rw [h1] at hj
        simp only [Except.map] at hj
        split
        · rename_i e' h'
          rw [hj] at h'; cases h'
          rfl
        · rename_i h'; rw [hj] at h'; cases h'
      | ok p =>
        obtain ⟨r1, V⟩ := p
        rw [h1] at hj
        simp only [Except.map] at hj
        split
        · rename_i h'; rw [hj] at h'; cases h'
        · rename_i s1 V' h'
          rw [hj] at h'; cases h'
          have hl := VLSDConfig.joinRight_length h1
          have e1 : (if V = [] then .ok (VLState.after a r1) else cfg.search I target TP FP M (cfg.sortOther.sort V) (VLState.after a r1)) =
              (if V = [] then .ok r1 else cfg.search I target TP FP M (cfg.sortOther.sort V) r1).map (VLState.after a) := by
            by_cases hV : V = []
            · rw [if_pos hV, if_pos hV]; rfl
            · rw [if_neg hV, if_neg hV]
              exact ih _ (by subst hn; rw [VLSDConfig.sort_length]; simp only [List.length_cons]; omega) _ _ rfl
          rw [e1]
          cases (if V = [] then .ok r1 else cfg.search I target TP FP M (cfg.sortOther.sort V) r1) with
          | error e => rfl
          | ok r2 => exact ih _ (by subst hn; simp) _ _ rfl

theorem level2_after (I : VLImpl Seq) (cfg : VLSDConfig) (target : Str × Str) (TP FP : Nat) (M : VMatrix Seq) (a : VLState Seq)
    (P : List (VList Selector Seq)) (r : VLState Seq) :
    cfg.level2 I target TP FP M P (VLState.after a r) = (cfg.level2 I target TP FP M P r).map (VLState.after a) := by
  induction P generalizing r with
  | nil => rfl
  | cons x rest ih =>
    unfold VLSDConfig.level2
    split
    · rfl
    · split
      · exact ih r
      · simp only
        rw [fold_after _ _ (vl_handle_after cfg target TP FP a)]
        cases List.foldlM (cfg.handle target TP FP) r _ with
        | error e => rfl
        | ok r1 =>
          simp only [Except.map]
          rw [search_after]
          cases cfg.search I target TP FP M _ r1 with
          | error e => rfl
          | ok r2 => exact ih r2

/-- C35, VLSD (both implementations of the vertical lists): whatever was done before with the object, `fit` fails as that of a new object
would, or it handles the same descriptions and writes the same file, and its counters are the previous ones plus those of a new object. -/
theorem C35_vlsd (I : VLImpl Seq) (cfg : VLSDConfig) (st : VLState Seq) (df : Frame) (target : Str × Str) :
    (∃ e, cfg.fit I newVLSD df target = .error e ∧ cfg.fit I st df target = .error e) ∨
    ∃ r st', cfg.fit I newVLSD df target = .ok r ∧ cfg.fit I st df target = .ok st' ∧
      st'.selected = st.selected + r.selected ∧ st'.unselected = st.unselected + r.unselected ∧ st'.calls = st.calls ++ r.calls ∧
      st'.file = r.file := by
  have key : cfg.fit I st df target = (cfg.fit I newVLSD df target).map (VLState.after st) := by
    unfold VLSDConfig.fit
    split
    · rfl
    · split
      · rfl
      · simp only
        split
        · rfl
        · have e1 : ({ st with file := [] } : VLState Seq) = VLState.after st newVLSD := by simp [VLState.after, newVLSD]
          have e2 : ({ newVLSD with file := [] } : VLState Seq) = newVLSD := rfl
          rw [e1, e2, fold_after _ _ (vl_handle_after cfg target _ _ st)]
          cases List.foldlM (cfg.handle target _ _) newVLSD _ with
          | error e => rfl
          | ok r =>
            simp only [Except.map]
            split
            · rfl
            · rw [level2_after]
              rfl
  rw [key]
  cases cfg.fit I newVLSD df target with
  | error e => exact Or.inl ⟨e, rfl, rfl⟩
  | ok r => exact Or.inr ⟨r, _, rfl, rfl, rfl, rfl, rfl, rfl⟩
end VLSD


/-! ## BSD and SDMapStar with a limit keep their list of best subgroups -/

def Spec.otherFrame : Frame :=
  ⟨4, [(c!"c", [.str c!"x", .str c!"x", .str c!"y", .str c!"z"]), (c!"t", [.str c!"yes", .str c!"no", .str c!"yes", .str c!"no"])]⟩

/-- C35 fails for BSD, CBSD and CPBSD: the list of best subgroups is kept, so after a `fit` on one data set, a `fit` on another one whose
only attributes are `c` and the target reports subgroups that speak about the attributes `a` and `b` of the first one; a new object reports
none of them. -/
theorem C35_bsd_fails (v : BSDVariant) : ∃ (num : Nat) (df1 df2 : Frame) (target : Str × Str) (st st2 fr : BSDState),
    df2.cols.map (·.1) = [c!"c", target.1] ∧
    (bsdCfg v num 1).fit .fresh df1 target = .ok st ∧ (bsdCfg v num 1).fit st df2 target = .ok st2 ∧ (bsdCfg v num 1).fit .fresh df2 target = .ok fr ∧
    (∃ l ∈ st2.file, ∃ s ∈ l.subgroup.description.sels, s.attr = c!"a") ∧ ∀ l ∈ fr.file, ∀ s ∈ l.subgroup.description.sels, s.attr = c!"c" := by
  have h : ∀ v, (match (bsdCfg v 2 1).fit .fresh demoFrame (c!"t", c!"yes"), (bsdCfg v 2 1).fit .fresh otherFrame (c!"t", c!"yes") with
      | .ok st, .ok fr => match (bsdCfg v 2 1).fit st otherFrame (c!"t", c!"yes") with
        | .ok st2 => decide ((∃ l ∈ st2.file, ∃ s ∈ l.subgroup.description.sels, s.attr = c!"a") ∧
            ∀ l ∈ fr.file, ∀ s ∈ l.subgroup.description.sels, s.attr = c!"c")
        | .error _ => false
      | _, _ => false) = true := by
    intro v; cases v <;> decide +kernel
  have h := h v
  split at h
  · split at h
    · rename_i st fr h1 h2 _ st2 h3
      obtain ⟨g1, g2⟩ := of_decide_eq_true h
      exact ⟨2, demoFrame, otherFrame, (c!"t", c!"yes"), st, st2, fr, by decide +kernel, h1, h3, h2, g1, g2⟩
    · simp at h
  · simp at h

def Spec.weakFrame : Frame :=
  ⟨4, [(c!"c", [.str c!"x", .str c!"x", .str c!"y", .str c!"z"]), (c!"t", [.str c!"y", .str c!"n", .str c!"y", .str c!"n"])]⟩

/-- C35 fails for SDMapStar with a limit: the best qualities of the first data set are kept and prune the second one, of which nothing is
handled, while a new object handles three descriptions. -/
theorem C35_sdmapstar_fails : ∃ (cfg : SDMapStarConfig) (df1 df2 : Frame) (target : Str × Str) (st st2 fr : StarState), cfg.num = 1 ∧
    cfg.fit freshStar df1 target = .ok st ∧ cfg.fit st df2 target = .ok st2 ∧ cfg.fit freshStar df2 target = .ok fr ∧
    st2.base.calls = st.base.calls ∧ st2.base.file = [] ∧ fr.base.calls.length = 3 ∧ fr.base.file ≠ [] := by
  have h : (match (starCfg Quality.piatetskyShapiro Quality.psOE1).fit freshStar lossFrame (c!"t", c!"y"),
        (starCfg Quality.piatetskyShapiro Quality.psOE1).fit freshStar weakFrame (c!"t", c!"y") with
      | .ok st, .ok fr => match (starCfg Quality.piatetskyShapiro Quality.psOE1).fit st weakFrame (c!"t", c!"y") with
        | .ok st2 => decide (st2.base.calls = st.base.calls ∧ st2.base.file.length = 0 ∧ fr.base.calls.length = 3 ∧ fr.base.file.length ≠ 0)
        | .error _ => false
      | _, _ => false) = true := by decide +kernel
  split at h
  · split at h
    · rename_i st fr h1 h2 _ st2 h3
      obtain ⟨g1, g2, g3, g4⟩ := of_decide_eq_true h
      exact ⟨_, lossFrame, weakFrame, (c!"t", c!"y"), st, st2, fr, rfl, h1, h3, h2, g1, List.length_eq_zero_iff.1 g2, g3, fun h => g4 (by rw [h]; rfl)⟩
    · simp at h
  · simp at h

end Verif
